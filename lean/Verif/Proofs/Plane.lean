import Verif.Spec.Plane
import Verif.Proofs.TorusCA
/-! # Runs on the torus as runs on the plane, with neighbourhoods that may depend on the row -/

namespace Verif
open Spec

/-- The state repeats in both directions. -/
theorem planeCA_tiled {V : Type} {D : Int → List (Int × Int)} {F : V → List V → V} {rows cols : Nat} {s : Nat → Nat → V}
    (hp : ∀ x, D (x % (rows : Int)) = D x) (t : Nat) :
    ∀ x y x' y' : Int, x % (rows : Int) = x' % (rows : Int) → y % (cols : Int) = y' % (cols : Int) →
      planeCA D F (tiled rows cols s) t x y = planeCA D F (tiled rows cols s) t x' y' := by
  induction t with
  | zero =>
    intro x y x' y' hx hy
    simp only [planeCA, tiled, hx, hy]
  | succ t ih =>
    intro x y x' y' hx hy
    simp only [planeCA, planeNbrs]
    rw [ih x y x' y' hx hy, show D x = D x' by rw [← hp x, ← hp x', hx]]
    congr 1
    apply List.map_congr_left
    intro d _
    apply ih
    · rw [Int.add_emod, hx, ← Int.add_emod]
    · rw [Int.add_emod, hy, ← Int.add_emod]

/-- Cells that agree as far as the steps reach have the same future for as many steps. -/
theorem planeCA_cone {V : Type} {D : Int → List (Int × Int)} {F : V → List V → V}
    (hsm : ∀ x, ∀ d ∈ D x, d.1.natAbs ≤ 1 ∧ d.2.natAbs ≤ 1) {S S' : Int → Int → V} (t : Nat) :
    ∀ x y : Int, (∀ i j : Int, i.natAbs ≤ t → j.natAbs ≤ t → S (x + i) (y + j) = S' (x + i) (y + j)) →
      planeCA D F S t x y = planeCA D F S' t x y := by
  induction t with
  | zero =>
    intro x y h
    have := h 0 0 (by simp) (by simp)
    simpa [planeCA] using this
  | succ t ih =>
    intro x y h
    simp only [planeCA, planeNbrs]
    rw [ih x y (fun i j hi hj => h i j (by omega) (by omega))]
    congr 1
    apply List.map_congr_left
    intro d hd
    obtain ⟨h1, h2⟩ := hsm x d hd
    apply ih
    intro i j hi hj
    have := h (d.1 + i) (d.2 + j) (by omega) (by omega)
    rw [← Int.add_assoc, ← Int.add_assoc] at this
    exact this

section
variable {V I σ κ : Type} [DecidableEq V] [DecidableEq κ]

/-- `D x` lists the offsets of `P`, in a row `x`, other than the zero offset; all of radius 1. -/
structure RowDirections (rows : Nat) (P : Nat → Int → Int → Prop) (D : Int → List (Int × Int)) : Prop where
  mem : ∀ (a : Nat) dx dy, P a dx dy ↔ (dx, dy) = (0, 0) ∨ (dx, dy) ∈ D a
  nodup : ∀ x, ((0, 0) :: D x).Nodup
  small : ∀ x, ∀ d ∈ D x, d.1.natAbs ≤ 1 ∧ d.2.natAbs ≤ 1
  symm : ∀ x, ∀ d ∈ D x, (-d.1, -d.2) ∈ D (x + d.1)
  period : ∀ x, D (x % (rows : Int)) = D x

theorem Directions.row {P : Int → Int → Prop} {D : List (Int × Int)} (h : Directions P D) (rows : Nat) :
    RowDirections rows (fun _ => P) (fun _ => D) := by
  refine ⟨fun _ => h.mem, fun _ => h.nodup, fun _ => h.small, ?_, fun _ => rfl⟩
  intro _ d hd
  have h1 := h.symm d.1 d.2 ((h.mem _ _).2 (Or.inr hd))
  rcases (h.mem _ _).1 h1 with h2 | h2
  · have : d = (0, 0) := by
      have a1 := congrArg Prod.fst h2
      have a2 := congrArg Prod.snd h2
      simp only at a1 a2
      exact Prod.ext (by simp only; omega) (by simp only; omega)
    rw [this] at hd
    exact absurd hd (List.nodup_cons.1 h.nodup).1
  · exact h2

theorem hex_directions {rows : Nat} (heven : rows % 2 = 0) : RowDirections rows (fun a => HexOffset a 1) hex6 := by
  refine ⟨?_, ?_, ?_, ?_, ?_⟩
  · intro a dx dy
    rw [C42_hex_ring]
    have h2 : ((a : Int) % 2 = 1) ↔ a % 2 = 1 := by omega
    unfold hexRing hex6
    by_cases h : a % 2 = 1
    · rw [if_pos h, if_pos (h2.2 h)]
      simp
    · rw [if_neg h, if_neg (fun h' => h (h2.1 h'))]
      simp
  · intro x
    unfold hex6
    split <;> decide
  · intro x
    unfold hex6
    split <;> decide
  · intro x d hd
    unfold hex6 at hd ⊢
    by_cases h : x % 2 = 1
    · rw [if_pos h] at hd
      simp only [List.cons_append, List.nil_append, List.mem_cons, List.not_mem_nil, or_false] at hd
      have h1 : ¬ (x + 1) % 2 = 1 := by omega
      have h2 : ¬ (x + -1) % 2 = 1 := by omega
      rcases hd with rfl | rfl | rfl | rfl | rfl | rfl <;> simp [h1, h2]
    · rw [if_neg h] at hd
      simp only [List.cons_append, List.nil_append, List.mem_cons, List.not_mem_nil, or_false] at hd
      have h1 : (x + 1) % 2 = 1 := by omega
      have h2 : (x + -1) % 2 = 1 := by omega
      rcases hd with rfl | rfl | rfl | rfl | rfl | rfl <;> simp [h1, h2]
  · intro x
    unfold hex6
    have : x % (rows : Int) % 2 = x % 2 := Int.emod_emod_of_dvd _ ⟨(rows : Int) / 2, by omega⟩
    rw [this]

/-- The neighbours of a cell, for any list with the right members. -/
theorem row_torus_perm {M : List (List Int)} {rows cols : Nat} (hr : 3 ≤ rows) (hc : 3 ≤ cols) {P : Nat → Int → Int → Prop}
    {D : Int → List (Int × Int)} (hD : RowDirections rows P D) (hM : GridMatrix rows cols P M) {a b : Nat} (ha : a < rows)
    (hb : b < cols) {l : List Nat} (hl : l.Nodup) (hm : ∀ y, y ∈ l ↔ ∃ v, v ≠ 0 ∧ entry M (a * cols + b) y = some v) :
    l.Perm (((0, 0) :: D a).map (offsetLabel rows cols a b)) := by
  have hsm : ∀ d ∈ (0, 0) :: D a, d.1.natAbs ≤ 1 ∧ d.2.natAbs ≤ 1 := by
    intro d hd
    rcases List.mem_cons.1 hd with rfl | hd
    · simp
    · exact hD.small a d hd
  apply (List.perm_ext_iff_of_nodup hl ?_).2
  · intro y
    rw [hm]
    constructor
    · rintro ⟨v, hv, he⟩
      have hy : y < rows * cols := by
        unfold entry at he
        cases hrow : M[a * cols + b]? with
        | none => rw [hrow] at he; cases he
        | some row =>
          rw [hrow] at he
          have := (List.getElem?_eq_some_iff.1 he).1
          rw [hM.2.1 row (List.mem_of_getElem? hrow)] at this
          exact this
      obtain ⟨h1, h2, h3⟩ := split_label hy
      have g := hM.2.2 a b (y / cols) (y % cols) ha hb h1 h2
      rw [h3] at g
      have ht : TorusReach rows cols (P a) (a, b) (y / cols, y % cols) := by
        apply Classical.byContradiction
        intro hn
        have := g.2 hn
        unfold entry at he
        rw [this] at he
        exact hv (Option.some.inj he).symm
      obtain ⟨dx, dy, hp, k1, k2⟩ := ht
      refine List.mem_map.2 ⟨(dx, dy), ?_, ?_⟩
      · rcases (hD.mem a dx dy).1 hp with h | h
        · rw [h]; simp
        · exact List.mem_cons_of_mem _ h
      · unfold offsetLabel
        simp only at k1 k2
        rw [k1, k2]
        exact h3
    · intro hy
      obtain ⟨d, hd, rfl⟩ := List.mem_map.1 hy
      have hp : P a d.1 d.2 := (hD.mem a d.1 d.2).2 (List.mem_cons.1 hd)
      have l1 := emod_toNat_lt ((a : Int) + d.1) (by omega : 0 < rows)
      have l2 := emod_toNat_lt ((b : Int) + d.2) (by omega : 0 < cols)
      refine ⟨1, by decide, (hM.2.2 a b _ _ ha hb l1 l2).1 ⟨d.1, d.2, hp, ?_, ?_⟩⟩
      · exact (Int.toNat_of_nonneg (Int.emod_nonneg _ (by omega))).symm
      · exact (Int.toNat_of_nonneg (Int.emod_nonneg _ (by omega))).symm
  · rw [List.Nodup, List.pairwise_map]
    refine List.Pairwise.imp_of_mem ?_ (hD.nodup a)
    intro p q hp hq hne heq
    obtain ⟨k1, k2⟩ := label_inj (emod_toNat_lt _ (by omega)) (emod_toNat_lt _ (by omega)) heq
    exact hne (Prod.ext (emod_offset_inj hr (hsm p hp).1 (hsm q hq).1 k1) (emod_offset_inj hc (hsm p hp).2 (hsm q hq).2 k2))

/-- The run of an automaton whose rule is defined for `Good` states of the cell only. -/
theorem plane_run_good {rows cols : Nat} (hrw : 3 ≤ rows) (hcl : 3 ≤ cols) {P : Nat → Int → Int → Prop} {D : Int → List (Int × Int)}
    (hD : RowDirections rows P D) {nbh : String} {M : List (List Int)} (hMe : caAdjacency2d rows cols 1 nbh "periodic" = .ok M)
    (hM : GridMatrix rows cols P M)
    {G : NodeCtx Nat Int V I → Except Err V} {F : V → List V → V}
    {Good : V → Prop} (hgood : ∀ v l, Good v → (∀ u ∈ l, Good u) → Good (F v l)) (hF : ∀ v l l', l.Perm l' → F v l = F v l')
    (hG : ∀ (c : NodeCtx Nat Int V I) (g : Nat → V) ys, (∀ y, Good (g y)) → (∃ x, ys.length = (D x).length) → c.neighbours.Perm (c.node :: ys) → c.node ∉ ys → c.neighbourActs = c.neighbours.map g →
      c.current = g c.node → G c = .ok (F c.current (ys.map g)))
    (cfg : Config Nat Int V I σ κ) (T : Nat) (hT : 1 ≤ T) (h : cfg.Ordinary G T) (N : Net Nat Int)
    (hN : cellularAutomaton2d rows cols 1 nbh true = .ok N) (r : Nat) (w : World Nat Int σ)
    (hr : w.heap[r]? = some N) (init : Option (Conds Nat V)) (s : Nat → Nat → V)
    (hs : ∀ a b, a < rows → b < cols → Good (s a b)) (hlen : (initDict cfg init).length = rows * cols)
    (h0 : ∀ a b, a < rows → b < cols → (initDict cfg init).get? (a * cols + b) = some (s a b))
    (fuel : Nat) (hf : T ≤ fuel) :
    ∃ res, evolve fuel cfg init r w = .ok res ∧ ShowsRun cfg res T (rows * cols)
      (fun t x => planeCA D F (tiled rows cols s) t ((x / cols : Nat) : Int) ((x % cols : Nat) : Int)) := by
  have h9 : 9 ≤ rows * cols := Nat.mul_le_mul hrw hcl
  have hgd : ∀ (t : Nat) (x y : Int), Good (planeCA D F (tiled rows cols s) t x y) := by
    intro t
    induction t with
    | zero => intro x y; exact hs _ _ (emod_toNat_lt _ (by omega)) (emod_toNat_lt _ (by omega))
    | succ t ih =>
      intro x y
      refine hgood _ _ (ih x y) ?_
      intro u hu
      obtain ⟨d, _, rfl⟩ := List.mem_map.1 hu
      exact ih _ _
  have hsym : Symmetric M := by
    refine grid_symmetric (P := fun p => P p.1) ⟨hM.1, hM.2.1⟩ hM.2.2 ?_
    intro p q dx dy _ _ hp hq
    rcases (hD.mem _ _ _).1 hp with h | h
    · obtain ⟨rfl, rfl⟩ := Prod.mk.inj h
      exact (hD.mem _ _ _).2 (Or.inl rfl)
    · refine (hD.mem _ _ _).2 (Or.inr ?_)
      have h1 := hD.symm _ _ h
      rw [← hD.period, hq] at h1
      exact h1
  have hself : ∀ a b : Nat, a < rows → b < cols → offsetLabel rows cols a b (0, 0) = a * cols + b := by
    intro a b ha hb
    simp only [offsetLabel, natCast_emod_self ha, natCast_emod_self hb, Int.toNat_natCast]
  have hd : ∀ x, x < rows * cols → entry M x x = some 1 := by
    intro x hx
    obtain ⟨ha, hb, hab⟩ := split_label hx
    have := (hM.2.2 _ _ _ _ ha hb ha hb).1 ⟨0, 0, (hD.mem _ _ _).2 (Or.inl rfl), natCast_emod_self ha, natCast_emod_self hb⟩
    rw [hab] at this
    exact this
  obtain ⟨N', rs, e1, e2, e3, e4⟩ := ordered_symmetric ⟨hM.1, hM.2.1⟩ hd hsym
  have hNN : N' = N := by
    unfold cellularAutomaton2d at hN
    rw [hMe] at hN
    simp only [if_true] at hN
    rw [e1] at hN
    exact Except.ok.inj hN
  subst hNN
  have hget : ∀ x, x < rows * cols → rs.get? x = some ((rs.get? x).getD []) ∧
      ((rs.get? x).getD [])[((rs.get? x).getD []).length / 2]? = some x ∧ ((rs.get? x).getD []).Perm
        (x :: (D ((x / cols : Nat) : Int)).map (offsetLabel rows cols (x / cols) (x % cols))) ∧ ((rs.get? x).getD []).Nodup := by
    intro x hx
    obtain ⟨l, l1, l2, l3, l4⟩ := e4 x hx
    obtain ⟨ha, hb, hab⟩ := split_label hx
    have hp := row_torus_perm hrw hcl hD hM ha hb l2 (by rw [hab]; exact l4)
    rw [List.map_cons, hself _ _ ha hb, hab] at hp
    rw [l1]
    exact ⟨rfl, l3, hp, l2⟩
  have hmap : ∀ (t x : Nat), ((D ((x / cols : Nat) : Int)).map (offsetLabel rows cols (x / cols) (x % cols))).map (fun y => planeCA D F (tiled rows cols s) t ((y / cols : Nat) : Int) ((y % cols : Nat) : Int)) =
      planeNbrs D (planeCA D F (tiled rows cols s) t) ((x / cols : Nat) : Int) ((x % cols : Nat) : Int) := by
    intro t x
    rw [List.map_map, planeNbrs]
    apply List.map_congr_left
    intro d _
    have l2 := emod_toNat_lt (((x % cols : Nat) : Int) + d.2) (by omega : 0 < cols)
    simp only [Function.comp, offsetLabel]
    have q1 := fun (p q : Nat) (hq : q < cols) => (show (p * cols + q) / cols = p by
      rw [Nat.mul_comm, Nat.mul_add_div (by omega), Nat.div_eq_of_lt hq, Nat.add_zero])
    have q2 := fun (p q : Nat) (hq : q < cols) => (show (p * cols + q) % cols = q by
      rw [Nat.mul_comm, Nat.mul_add_mod, Nat.mod_eq_of_lt hq])
    rw [q1 _ _ l2, q2 _ _ l2]
    have n1 : (0 : Int) ≤ (((x / cols : Nat) : Int) + d.1) % (rows : Int) := Int.emod_nonneg _ (by omega)
    have n2 : (0 : Int) ≤ (((x % cols : Nat) : Int) + d.2) % (cols : Int) := Int.emod_nonneg _ (by omega)
    apply planeCA_tiled hD.period
    · rw [Int.toNat_of_nonneg n1, Int.emod_emod_of_dvd _ (Int.dvd_refl _)]
    · rw [Int.toNat_of_nonneg n2, Int.emod_emod_of_dvd _ (Int.dvd_refl _)]
  have hval : ∀ (t x : Nat), x < rows * cols →
      (((rs.get? x).getD []).map (fun y => planeCA D F (tiled rows cols s) t ((y / cols : Nat) : Int) ((y % cols : Nat) : Int))).Perm
        (planeCA D F (tiled rows cols s) t ((x / cols : Nat) : Int) ((x % cols : Nat) : Int) ::
          planeNbrs D (planeCA D F (tiled rows cols s) t) ((x / cols : Nat) : Int) ((x % cols : Nat) : Int)) := by
    intro t x hx
    refine ((hget x hx).2.2.1.map _).trans ?_
    rw [List.map_cons, hmap]
  refine ca_run h hT (by omega) e3 (nb := fun x => (rs.get? x).getD []) ?_ hlen ?_ ?_ ?_ hr hf
  · intro x hx
    obtain ⟨l1, l2, l3, _⟩ := hget x hx
    refine ⟨by simp only [specNbrs, e2]; exact l1, ?_⟩
    intro y hy
    rcases List.mem_cons.1 (l3.mem_iff.1 hy) with rfl | hy
    · exact hx
    · obtain ⟨d, _, rfl⟩ := List.mem_map.1 hy
      exact label_lt (emod_toNat_lt _ (by omega)) (emod_toNat_lt _ (by omega))
  · intro x hx
    obtain ⟨ha, hb, hab⟩ := split_label hx
    have := h0 _ _ ha hb
    rw [hab] at this
    rw [this]
    have e1 := natCast_emod_self ha
    have e2 := natCast_emod_self hb
    rw [Int.add_zero] at e1 e2
    show _ = some (s (((x / cols : Nat) : Int) % (rows : Int)).toNat (((x % cols : Nat) : Int) % (cols : Int)).toNat)
    rw [e1, e2, Int.toNat_natCast, Int.toNat_natCast]
  · intro t ht x hx
    have hg := hget x hx
    have hni : x ∉ (D ((x / cols : Nat) : Int)).map (offsetLabel rows cols (x / cols) (x % cols)) := (List.nodup_cons.1 (hg.2.2.1.nodup_iff.1 hg.2.2.2)).1
    have := hG (plainCtx cfg N' (fun x => (rs.get? x).getD []) (initDict cfg init) (fun t x => planeCA D F (tiled rows cols s) t ((x / cols : Nat) : Int) ((x % cols : Nat) : Int)) t x)
      (fun y => planeCA D F (tiled rows cols s) t ((y / cols : Nat) : Int) ((y % cols : Nat) : Int)) _ (fun y => hgd t _ _) ⟨_, List.length_map _⟩ hg.2.2.1 hni rfl rfl
    rw [hmap] at this
    exact this
  · intro _
    refine ⟨by rw [e2]; rfl, ?_⟩
    intro t t' x x' ht ht' hx hx' heq
    have hcen : planeCA D F (tiled rows cols s) t ((x / cols : Nat) : Int) ((x % cols : Nat) : Int) = planeCA D F (tiled rows cols s) t' ((x' / cols : Nat) : Int) ((x' % cols : Nat) : Int) := by
      have hlen' : ((rs.get? x).getD []).length = ((rs.get? x').getD []).length := by
        have := congrArg List.length heq
        simpa using this
      have := congrArg (fun l : List V => l[((rs.get? x).getD []).length / 2]?) heq
      simp only [List.getElem?_map] at this
      rw [(hget x hx).2.1, hlen', (hget x' hx').2.1] at this
      simpa using this
    have p1 := hval t x hx
    have p2 := hval t' x' hx'
    rw [← heq] at p2
    have p3 := p1.symm.trans p2
    rw [hcen] at p3
    show F _ _ = F _ _
    rw [hcen]
    exact hF _ _ _ p3.cons_inv


/-- `plane_run_good` for a rule that looks at the activities only, in any order. -/
theorem plane_run {rows cols : Nat} (hrw : 3 ≤ rows) (hcl : 3 ≤ cols) {P : Nat → Int → Int → Prop}
    {D : Int → List (Int × Int)} (hD : RowDirections rows P D) {nbh : String} {M : List (List Int)}
    (hMe : caAdjacency2d rows cols 1 nbh "periodic" = .ok M) (hM : GridMatrix rows cols P M)
    {G : NodeCtx Nat Int V I → Except Err V} {F : V → List V → V}
    (hG : ∀ (c : NodeCtx Nat Int V I) l, c.neighbourActs.Perm (c.current :: l) → G c = .ok (F c.current l))
    (cfg : Config Nat Int V I σ κ) (T : Nat) (hT : 1 ≤ T) (h : cfg.Ordinary G T) (N : Net Nat Int)
    (hN : cellularAutomaton2d rows cols 1 nbh true = .ok N) (r : Nat) (w : World Nat Int σ)
    (hr : w.heap[r]? = some N) (init : Option (Conds Nat V)) (s : Nat → Nat → V)
    (hlen : (initDict cfg init).length = rows * cols)
    (h0 : ∀ a b, a < rows → b < cols → (initDict cfg init).get? (a * cols + b) = some (s a b))
    (fuel : Nat) (hf : T ≤ fuel) :
    ∃ res, evolve fuel cfg init r w = .ok res ∧ ShowsRun cfg res T (rows * cols)
      (fun t x => planeCA D F (tiled rows cols s) t ((x / cols : Nat) : Int) ((x % cols : Nat) : Int)) := by
  refine plane_run_good hrw hcl hD hMe hM (Good := fun _ => True) (fun _ _ _ _ => trivial) ?_ ?_ cfg T hT h N hN r w hr init s
    (fun _ _ _ _ => trivial) hlen h0 fuel hf
  · intro v l l' hl
    have q1 := hG ⟨0, 0, [], [], v :: l, [], v, none, none⟩ l (List.Perm.refl _)
    have q2 := hG ⟨0, 0, [], [], v :: l, [], v, none, none⟩ l' (hl.cons v)
    rw [q1] at q2
    exact Except.ok.inj q2
  · intro c g ys _ _ h1 _ h3 h4
    refine hG c _ ?_
    rw [h3, h4]
    exact h1.map g

end
end Verif
