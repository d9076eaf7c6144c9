import Verif.Proofs.Rbm
/-! # C109: the restricted Boltzmann machine demo -/

namespace Verif
open Spec MG
section
variable {I σ κ : Type} [DecidableEq κ]

/-- The activities of the demo in layers `s`: the unit and its bias. -/
def rbmValue (a b : Nat → Rat) (s : Layers) : RbmLabel → Rat × Rat
  | .v i => (bit (s.vis i), a i)
  | .h j => (bit (s.hid j), b j)

/-- `vs` is the set `{"%sv" % n for n in range(nv)}` in some order, `hs` the set `{"%sh" % n for n in range(nh)}`. -/
structure UnitSets (nv nh : Nat) (vs hs : List RbmLabel) : Prop where
  visible : vs.Perm ((List.range nv).map .v)
  hidden : hs.Perm ((List.range nh).map .h)

theorem nodup_v (n : Nat) : ((List.range n).map RbmLabel.v).Nodup :=
  List.pairwise_map.2 (List.nodup_range.imp (fun h he => h (RbmLabel.v.inj he)))

theorem nodup_h (n : Nat) : ((List.range n).map RbmLabel.h).Nodup :=
  List.pairwise_map.2 (List.nodup_range.imp (fun h he => h (RbmLabel.h.inj he)))

namespace UnitSets
variable {nv nh : Nat} {vs hs : List RbmLabel} (h : UnitSets nv nh vs hs)
include h

theorem nodupV : vs.Nodup := h.visible.nodup_iff.2 (nodup_v nv)
theorem nodupH : hs.Nodup := h.hidden.nodup_iff.2 (nodup_h nh)
theorem memV {x : RbmLabel} : x ∈ vs ↔ ∃ i, i < nv ∧ x = .v i := by
  rw [h.visible.mem_iff, List.mem_map]
  constructor
  · rintro ⟨i, hi, rfl⟩; exact ⟨i, List.mem_range.1 hi, rfl⟩
  · rintro ⟨i, hi, rfl⟩; exact ⟨i, List.mem_range.2 hi, rfl⟩
theorem memH {x : RbmLabel} : x ∈ hs ↔ ∃ i, i < nh ∧ x = .h i := by
  rw [h.hidden.mem_iff, List.mem_map]
  constructor
  · rintro ⟨i, hi, rfl⟩; exact ⟨i, List.mem_range.1 hi, rfl⟩
  · rintro ⟨i, hi, rfl⟩; exact ⟨i, List.mem_range.2 hi, rfl⟩
theorem disjoint : ∀ x ∈ vs, x ∉ hs := by
  intro x hx hx'
  obtain ⟨i, _, rfl⟩ := h.memV.1 hx
  obtain ⟨j, _, he⟩ := h.memH.1 hx'
  cases he
end UnitSets

/-- C109, the files: the weight between visible unit `x` and hidden unit `y` is the entry in row `y`, column `x`; there is none outside the
file. -/
theorem C109_read (rows : List (List Rat)) (x y : Nat) :
    lookupE (rbmReadWeights rows) (.v x) (.h y) = ((rows[y]?).bind (fun l => l[x]?)).map (fun w => [("weight", w)]) := by
  have := rbmReadRows rows 0 [] x y
  unfold rbmReadWeights
  rw [this]
  simp [lookupE, Dict.get?]

/-- C109, the biases: the bias of unit `i` is the first entry of row `i`. -/
theorem C109_biases {mk : Nat → RbmLabel} (hmk : ∀ i j, mk i = mk j → i = j) {rows : List (List Rat)} (h : ∀ l ∈ rows, l ≠ []) :
    ∃ d, rbmReadBiases mk rows = .ok d ∧ ∀ i, d.get? (mk i) = (rows[i]?).bind (fun l => l[0]?) := by
  obtain ⟨d, e1, e2⟩ := rbmReadBiases_from hmk rows 0 [] h
  refine ⟨d, e1, ?_⟩
  intro i
  rw [e2]
  by_cases hi : i < rows.length
  · rw [if_pos (by omega)]; simp
  · rw [if_neg (by omega), List.getElem?_eq_none (by omega)]; rfl

/-- C109, the initial conditions: the visible units at random, the hidden ones off. -/
theorem C109_init {nv nh : Nat} {vs hs : List RbmLabel} (hu : UnitSets nv nh vs hs) {vb hb : Dict RbmLabel Rat} {a b : Nat → Rat}
    (ha : ∀ i, i < nv → vb.get? (.v i) = some (a i)) (hb' : ∀ j, j < nh → hb.get? (.h j) = some (b j)) (choice : RbmLabel → Bool) :
    ∃ d, rbmInit choice vs hs vb hb = .ok d ∧ d.length = nv + nh ∧
      ∀ x ∈ vs ++ hs, d.get? x = some (rbmValue a b ⟨fun i => choice (.v i), fun _ => false⟩ x) := by
  obtain ⟨d, e1, e2, e3⟩ := rbmSet_fold (value := fun x => if choice x then 1 else 0) (biases := vb) (b := fun x => (vb.get? x).getD 0) vs []
    hu.nodupV (by simp [Dict.keys]) (by
      intro x hx
      obtain ⟨i, hi, rfl⟩ := hu.memV.1 hx
      rw [ha i hi]; rfl)
  obtain ⟨d', f1, f2, f3⟩ := rbmSet_fold (value := fun _ => 0) (biases := hb) (b := fun x => (hb.get? x).getD 0) hs d
    hu.nodupH (by
      intro x hx
      rw [e2]
      intro hm
      exact hu.disjoint x (by simpa [Dict.keys] using hm) hx) (by
      intro x hx
      obtain ⟨i, hi, rfl⟩ := hu.memH.1 hx
      rw [hb' i hi]; rfl)
  refine ⟨d', ?_, ?_, ?_⟩
  · unfold rbmInit
    rw [e1]
    exact f1
  · have : d'.length = d'.keys.length := by simp [Dict.keys]
    rw [this, f2, e2]
    have h1 := hu.visible.length_eq
    have h2 := hu.hidden.length_eq
    simp only [List.length_map, List.length_range] at h1 h2
    simp [Dict.keys, h1, h2]
  · intro x hx
    rw [f3, e3]
    rcases List.mem_append.1 hx with hx | hx
    · rw [if_neg (hu.disjoint x hx), if_pos hx]
      obtain ⟨i, hi, rfl⟩ := hu.memV.1 hx
      simp [rbmValue, bit, ha i hi]
    · rw [if_pos hx]
      obtain ⟨i, hi, rfl⟩ := hu.memH.1 hx
      simp [rbmValue, bit, hb' i hi]

theorem mapM_range_ok {α β : Type} {T : Nat} {x : Nat → α} {F : α → Except Err β} {y : Nat → β} (h : ∀ t, t < T → F (x t) = .ok (y t)) :
    ((List.range T).map x).mapM F = .ok ((List.range T).map y) := by
  have key : ∀ l : List Nat, (∀ t ∈ l, t < T) → (l.map x).mapM F = .ok (l.map y) := by
    intro l
    induction l with
    | nil => intro _; rfl
    | cons t l ih =>
      intro hl
      rw [List.map_cons, List.mapM_cons, h t (hl t (by simp))]
      show (do let bs ← (l.map x).mapM F; pure (y t :: bs)) = _
      rw [ih (fun s hs => hl s (by simp [hs]))]
      rfl
  exact key _ (fun t ht => List.mem_range.1 ht)

/-- C109.  With one weight per pair of units, `evolve` with the rule of the demo performs Gibbs sampling: in state `t` the activity of a unit is
its value in step `t` together with its unchanged bias, whatever the order of the sets, and `get_visible_activities` returns the visible
layers. -/
theorem C109_gibbs {nv nh : Nat} (hnv : 1 ≤ nv) (hnh : 1 ≤ nh) {vs hs : List RbmLabel} (hu : UnitSets nv nh vs hs)
    {draw : Nat → RbmLabel → Rat → Bool} {T : Nat} (hT : 1 ≤ T) {cfg : Config RbmLabel Rat (Rat × Rat) I σ κ} (h : cfg.Ordinary (rbmRule vs hs draw) T)
    (hm : cfg.memoize = false) {weights : EdgeAttrs RbmLabel Rat} {W : Nat → Nat → Rat}
    (hW : ∀ i, i < nv → ∀ j, j < nh → lookupE weights (.v i) (.h j) = some [("weight", W i j)])
    {N : Net RbmLabel Rat} (hN : bipartite vs hs (some weights) = .ok N) {d0 : Dict RbmLabel (Rat × Rat)} {a b : Nat → Rat} {start : Nat → Bool}
    (hlen : d0.length = nv + nh) (h0 : ∀ x ∈ vs ++ hs, d0.get? x = some (rbmValue a b ⟨start, fun _ => false⟩ x))
    {r : Nat} {w : World RbmLabel Rat σ} (hr : w.heap[r]? = some N) {fuel : Nat} (hf : T ≤ fuel) :
    ∃ res, evolve fuel cfg (some (.dict d0)) r w = .ok res ∧ res.states.length = T ∧
      ∃ ds : List (Dict RbmLabel (Rat × Rat)), ds.length = T ∧
        (∀ t, t < T → res.acts cfg t = ds[t]?) ∧
        (∀ t d, ds[t]? = some d → d.length = nv + nh ∧ ∀ x ∈ vs ++ hs,
          d.get? x = some (rbmValue a b (gibbs nv nh W a b (fun t i => draw t (.v i)) (fun t j => draw t (.h j)) start t) x)) ∧
        rbmVisible nv ds = .ok ((List.range T).map (fun t => (List.range nv).map (fun i =>
          bit ((gibbs nv nh W a b (fun t i => draw t (.v i)) (fun t j => draw t (.h j)) start t).vis i)))) := by
  let S : Nat → Layers := gibbs nv nh W a b (fun t i => draw t (.v i)) (fun t j => draw t (.h j)) start
  let F : RbmLabel → RbmLabel → Attr Rat := fun u v => match u, v with
    | .v i, .h j => [("weight", W i j)]
    | _, _ => []
  have hpa : ∀ p ∈ vs.flatMap (fun u => hs.map (fun v => (u, v))), pairAttrs (some weights) p.1 p.2 = .ok (F p.1 p.2) := by
    rintro ⟨u, v⟩ hp
    rw [mem_pairs] at hp
    obtain ⟨i, hi, rfl⟩ := hu.memV.1 hp.1
    obtain ⟨j, hj, rfl⟩ := hu.memH.1 hp.2
    have hw := hW i hi j hj
    unfold lookupE at hw
    cases hg : Dict.get? weights (RbmLabel.v i) with
    | none => rw [hg] at hw; cases hw
    | some du =>
      rw [hg] at hw
      simp only [Option.bind_some] at hw
      simp [pairAttrs, Dict.get, hg, hw, F]
  obtain ⟨g, h1, h2, h3, h4, h5⟩ := bipartite_fold (g := MG.empty) _ hpa (valid_empty (L := RbmLabel) (A := Rat))
  have hNg : N = ofMG g := Except.ok.inj (hN.symm.trans h1)
  simp only [MG.empty, List.nil_append] at h3 h4
  have hv0 : RbmLabel.v 0 ∈ vs := hu.memV.2 ⟨0, hnv, rfl⟩
  have hh0 : RbmLabel.h 0 ∈ hs := hu.memH.2 ⟨0, hnh, rfl⟩
  have hlab : ∀ x, x ∈ g.labels ↔ x ∈ vs ++ hs := by
    intro x
    rw [h5, List.mem_append]
    constructor
    · rintro (hx | ⟨⟨u, v⟩, hp, hx⟩)
      · simp [MG.empty, MG.labels] at hx
      · rw [mem_pairs] at hp
        rcases hx with rfl | rfl
        · exact Or.inl hp.1
        · exact Or.inr hp.2
    · rintro (hx | hx)
      · exact Or.inr ⟨(x, .h 0), mem_pairs.2 ⟨hx, hh0⟩, Or.inl rfl⟩
      · exact Or.inr ⟨(.v 0, x), mem_pairs.2 ⟨hv0, hx⟩, Or.inr rfl⟩
  have hnd : (vs ++ hs).Nodup :=
    List.nodup_append.2 ⟨hu.nodupV, hu.nodupH, fun x hx y hy he => hu.disjoint x hx (he ▸ hy)⟩
  have hperm : g.labels.Perm (vs ++ hs) := (List.perm_ext_iff_of_nodup h2.nodup hnd).2 hlab
  have hll : g.labels.length = nv + nh := by
    rw [hperm.length_eq, List.length_append, hu.visible.length_eq, hu.hidden.length_eq]
    simp
  have hne : g.labels ≠ [] := by
    intro he
    rw [he] at hll
    simp at hll
    omega
  have hsv : ∀ i, i < nv → (sources g.edges (.v i)).Perm ((List.range nh).map .h) := by
    intro i hi
    refine List.Perm.trans ?_ hu.hidden
    refine (List.perm_ext_iff_of_nodup (nodup_sources _ _) hu.nodupH).2 ?_
    intro y
    rw [h3, sources_bidir, mem_pairs, mem_pairs]
    constructor
    · rintro (⟨_, hy⟩ | ⟨_, hy⟩)
      · exact absurd hy (hu.disjoint _ (hu.memV.2 ⟨i, hi, rfl⟩))
      · exact hy
    · exact fun hy => Or.inr ⟨hu.memV.2 ⟨i, hi, rfl⟩, hy⟩
  have hsh : ∀ j, j < nh → (sources g.edges (.h j)).Perm ((List.range nv).map .v) := by
    intro j hj
    refine List.Perm.trans ?_ hu.visible
    refine (List.perm_ext_iff_of_nodup (nodup_sources _ _) hu.nodupV).2 ?_
    intro y
    rw [h3, sources_bidir, mem_pairs, mem_pairs]
    constructor
    · rintro (⟨hy, _⟩ | ⟨hy, _⟩)
      · exact hy
      · exact absurd (hu.memH.2 ⟨j, hj, rfl⟩) (hu.disjoint _ hy)
    · exact fun hy => Or.inl ⟨hy, hu.memH.2 ⟨j, hj, rfl⟩⟩
  have hbt : ∀ i, i < nv → ∀ j, j < nh → between g.edges (.v i) (.h j) = [[("weight", W i j)]] ∧
      between g.edges (.h j) (.v i) = [[("weight", W i j)]] := by
    intro i hi j hj
    rw [h3]
    exact between_bidir (f := F) (nodup_pairs hu.nodupV hu.nodupH) (mem_pairs.2 ⟨hu.memV.2 ⟨i, hi, rfl⟩, hu.memH.2 ⟨j, hj, rfl⟩⟩)
      (by rw [mem_pairs]; exact fun hh => hu.disjoint _ hh.1 (hu.memV.2 ⟨i, hi, rfl⟩ |> fun hv => absurd (hu.memH.2 ⟨j, hj, rfl⟩) (hu.disjoint _ hh.1)))
  have hinit : initDict cfg (some (.dict d0)) = d0 := rfl
  obtain ⟨res, e1, e2, e3⟩ := mg_run h hT h2 h4 hne (init := some (.dict d0)) (by rw [hinit, hlen, hll]) (f := fun t => rbmValue a b (S t)) (by
      intro x hx
      rw [hinit]
      exact h0 x ((hlab x).1 hx)) (by
      intro t ht x hx c c1 c2 c3 c4 c5 _ c7
      have hpar : ∀ t, S (t + 1) = if (t + 1) % 2 = 1 then
          ⟨(S t).vis, fun j => draw (t + 1) (.h j) (b j + ((List.range nv).map (fun i => W i j * bit ((S t).vis i))).sum)⟩
        else ⟨fun i => draw (t + 1) (.v i) (a i + ((List.range nh).map (fun j => W i j * bit ((S t).hid j))).sum), (S t).hid⟩ := fun t => rfl
      unfold rbmRule
      rw [c1, c2, c3]
      rcases List.mem_append.1 ((hlab x).1 hx) with hxv | hxh
      · obtain ⟨i, hi, rfl⟩ := hu.memV.1 hxv
        simp only [rbmValue]
        rw [if_neg (fun hh => hu.disjoint _ hxv hh.2), hpar t]
        by_cases hp : (t + 1) % 2 = 1
        · rw [if_pos ⟨by omega, hxv⟩, if_pos hp]
        · rw [if_neg (fun hh => hh.1 (by omega)), if_neg hp, c5,
            rbmAdd_fold (w := fun y => match y with | .h j => W i j | .v _ => 0) (f := fun y => (rbmValue a b (S t) y).1)]
          · simp only [Rat.zero_add]
            rw [rat_sum_perm ((hsv i hi).map _), List.map_map]
            rfl
          · intro y hy
            have hy' := (hsv i hi).mem_iff.1 hy
            obtain ⟨j, hj, rfl⟩ := List.mem_map.1 hy'
            rw [List.mem_range] at hj
            refine ⟨?_, b j, ?_⟩
            · rw [c7, get?_incomingOf, if_pos hy, (hbt i hi j hj).2]
            · exact Dict.get_eq_ok_iff.1 (c4 _ ((hlab _).2 (List.mem_append_right _ (hu.memH.2 ⟨j, hj, rfl⟩))))
      · obtain ⟨j, hj, rfl⟩ := hu.memH.1 hxh
        have hnv' : RbmLabel.h j ∉ vs := fun hh => hu.disjoint _ hh hxh
        simp only [rbmValue]
        rw [hpar t]
        by_cases hp : (t + 1) % 2 = 1
        · rw [if_neg (fun hh => absurd hh.1 (by omega)), if_neg (fun hh => hnv' hh.2), if_pos hp, c5,
            rbmAdd_fold (w := fun y => match y with | .v i => W i j | .h _ => 0) (f := fun y => (rbmValue a b (S t) y).1)]
          · simp only [Rat.zero_add]
            rw [rat_sum_perm ((hsh j hj).map _), List.map_map]
            rfl
          · intro y hy
            have hy' := (hsh j hj).mem_iff.1 hy
            obtain ⟨i, hi, rfl⟩ := List.mem_map.1 hy'
            rw [List.mem_range] at hi
            refine ⟨?_, a i, ?_⟩
            · rw [c7, get?_incomingOf, if_pos hy, (hbt i hi j hj).1]
            · exact Dict.get_eq_ok_iff.1 (c4 _ ((hlab _).2 (List.mem_append_left _ (hu.memV.2 ⟨i, hi, rfl⟩))))
        · rw [if_pos ⟨by omega, hxh⟩, if_neg hp])
    (by intro hh; rw [hm] at hh; cases hh) (by rw [hr, hNg]) hf
  refine ⟨res, e1, e2, (List.range T).map (fun t => (res.acts cfg t).getD []), by simp, ?_, ?_, ?_⟩
  · intro t ht
    obtain ⟨d, k1, _⟩ := e3 t ht
    simp [List.getElem?_range ht, k1]
  · intro t d hd
    rw [List.getElem?_map] at hd
    by_cases ht : t < T
    · obtain ⟨d', k1, k2, k3⟩ := e3 t ht
      rw [List.getElem?_range ht] at hd
      simp only [Option.map_some, k1, Option.getD_some, Option.some.injEq] at hd
      subst hd
      exact ⟨by rw [k2, hll], fun x hx => k3 x ((hlab x).2 hx)⟩
    · rw [List.getElem?_eq_none (by simpa using ht)] at hd
      cases hd
  · unfold rbmVisible
    refine mapM_range_ok ?_
    intro t ht
    obtain ⟨d, k1, k2, k3⟩ := e3 t ht
    rw [k1, Option.getD_some]
    have hk : g.labels.Perm d.keys := perm_of_subset_length h2.nodup (fun x hx => Dict.mem_keys_of_get? (k3 x hx)) (by rw [← k2]; simp [Dict.keys])
    have hdn : d.keys.Nodup := hk.nodup_iff.1 h2.nodup
    obtain ⟨acts, m1, m2, m3⟩ := rbmPut_fold (nv := nv) (F := fun i => bit ((S t).vis i)) d (List.replicate nv 0) hdn (by
      rintro ⟨k, q⟩ hp n hkn
      simp only at hkn
      subst hkn
      have hg := Dict.get?_of_mem hdn hp
      have hmem : RbmLabel.v n ∈ g.labels := hk.mem_iff.2 (Dict.mem_keys_of_get? hg)
      have hval := k3 _ hmem
      rw [hg] at hval
      rcases List.mem_append.1 ((hlab _).1 hmem) with hh | hh
      · obtain ⟨i, hi, he⟩ := hu.memV.1 hh
        cases he
        exact ⟨hi, by rw [Option.some.inj hval]; rfl⟩
      · obtain ⟨i, _, he⟩ := hu.memH.1 hh
        cases he) (by simp)
    rw [m1]
    congr 1
    apply List.ext_getElem?
    intro n
    by_cases hn : n < nv
    · rw [m3 n hn, if_pos (hk.mem_iff.1 ((hlab _).2 (List.mem_append_left _ (hu.memV.2 ⟨n, hn, rfl⟩))))]
      simp [List.getElem?_range hn, S]
    · rw [List.getElem?_eq_none (by omega), List.getElem?_eq_none (by simpa using hn)]

/-- C109 from the files to the images: `rows`, `vrows` and `hrows` are the rows of the three files, `choice` the random start. -/
theorem C109_demo {nv nh : Nat} (hnv : 1 ≤ nv) (hnh : 1 ≤ nh) {vs hs : List RbmLabel} (hu : UnitSets nv nh vs hs)
    {draw : Nat → RbmLabel → Rat → Bool} {T : Nat} (hT : 1 ≤ T) {cfg : Config RbmLabel Rat (Rat × Rat) I σ κ} (h : cfg.Ordinary (rbmRule vs hs draw) T)
    (hm : cfg.memoize = false) {rows vrows hrows : List (List Rat)} {W : Nat → Nat → Rat} {a b : Nat → Rat}
    (hW : ∀ i, i < nv → ∀ j, j < nh → (rows[j]?).bind (fun l => l[i]?) = some (W i j))
    (hv1 : ∀ l ∈ vrows, l ≠ []) (hv2 : ∀ i, i < nv → (vrows[i]?).bind (fun l => l[0]?) = some (a i))
    (hh1 : ∀ l ∈ hrows, l ≠ []) (hh2 : ∀ j, j < nh → (hrows[j]?).bind (fun l => l[0]?) = some (b j)) (choice : RbmLabel → Bool)
    {fuel : Nat} (hf : T ≤ fuel) (u : σ) :
    ∃ vb hb N d0 res ds, rbmReadBiases .v vrows = .ok vb ∧ rbmReadBiases .h hrows = .ok hb ∧
      bipartite vs hs (some (rbmReadWeights rows)) = .ok N ∧ rbmInit choice vs hs vb hb = .ok d0 ∧
      evolve fuel cfg (some (.dict d0)) 0 ⟨[N], u⟩ = .ok res ∧ res.states.length = T ∧
      (ds.length = T ∧ ∀ t, t < T → res.acts cfg t = ds[t]?) ∧
      rbmVisible nv ds = .ok ((List.range T).map (fun t => (List.range nv).map (fun i =>
        bit ((gibbs nv nh W a b (fun t i => draw t (.v i)) (fun t j => draw t (.h j)) (fun i => choice (.v i)) t).vis i)))) := by
  obtain ⟨vb, v1, v2⟩ := C109_biases (mk := .v) (fun _ _ he => RbmLabel.v.inj he) hv1
  obtain ⟨hb, b1, b2⟩ := C109_biases (mk := .h) (fun _ _ he => RbmLabel.h.inj he) hh1
  obtain ⟨d0, i1, i2, i3⟩ := C109_init hu (vb := vb) (hb := hb) (a := a) (b := b) (fun i hi => by rw [v2, hv2 i hi]) (fun j hj => by rw [b2, hh2 j hj]) choice
  have hW' : ∀ i, i < nv → ∀ j, j < nh → lookupE (rbmReadWeights rows) (.v i) (.h j) = some [("weight", W i j)] := by
    intro i hi j hj
    rw [C109_read, hW i hi j hj]
    rfl
  obtain ⟨N, n1⟩ : ∃ N, bipartite vs hs (some (rbmReadWeights rows)) = .ok N := by
    obtain ⟨g, h1, _⟩ := bipartite_fold (ea := some (rbmReadWeights rows)) (f := fun u v => (lookupE (rbmReadWeights rows) u v).getD [])
      (g := MG.empty) (vs.flatMap (fun u => hs.map (fun v => (u, v)))) (by
        rintro ⟨u, v⟩ hp
        rw [mem_pairs] at hp
        obtain ⟨i, hi, rfl⟩ := hu.memV.1 hp.1
        obtain ⟨j, hj, rfl⟩ := hu.memH.1 hp.2
        have hw := hW' i hi j hj
        rw [hw]
        unfold lookupE at hw
        cases hg : Dict.get? (rbmReadWeights rows) (RbmLabel.v i) with
        | none => rw [hg] at hw; cases hw
        | some du =>
          rw [hg] at hw
          simp only [Option.bind_some] at hw
          simp [pairAttrs, Dict.get, hg, hw]) (valid_empty (L := RbmLabel) (A := Rat))
    exact ⟨_, h1⟩
  obtain ⟨res, e1, e2, ds, e3, e4, _, e6⟩ := C109_gibbs hnv hnh hu hT h hm hW' n1 i2 i3 (r := 0) (w := ⟨[N], u⟩) rfl hf
  exact ⟨vb, hb, N, d0, res, ds, v1, b1, n1, i1, e1, e2, ⟨e3, e4⟩, e6⟩

theorem bipartite_missing {L A : Type} [DecidableEq L] {d : EdgeAttrs L A} : ∀ (ps : List (L × L)) {g : MG L A}, g.Valid →
    (∃ p ∈ ps, (d.get? p.1).bind (fun r => r.get? p.2) = none) → ps.foldlM (bipartiteStep (some d)) (ofMG g) = .error .keyError := by
  intro ps
  induction ps with
  | nil => rintro g _ ⟨p, hp, _⟩; cases hp
  | cons q ps ih =>
    intro g hg hex
    rw [List.foldlM_cons]
    cases h1 : d.get? q.1 with
    | none =>
      have : bipartiteStep (some d) (ofMG g) q = .error .keyError := by simp [bipartiteStep, pairAttrs, Dict.get, h1]
      rw [this]; rfl
    | some r =>
      cases h2 : r.get? q.2 with
      | none =>
        have : bipartiteStep (some d) (ofMG g) q = .error .keyError := by simp [bipartiteStep, pairAttrs, Dict.get, h1, h2]
        rw [this]; rfl
      | some v =>
        obtain ⟨e1, e2⟩ := exec_ofMG hg (Net.Op.addEdgeBidir q.1 q.2 v)
        simp only [Net.exec, MG.exec] at e1 e2
        have hstep : bipartiteStep (some d) (ofMG g) q = .ok (ofMG (addEdge (addEdge g q.1 q.2 v) q.2 q.1 v)) := by
          simp [bipartiteStep, pairAttrs, Dict.get, h1, h2, e1]
        rw [hstep]
        refine ih e2 ?_
        obtain ⟨p, hp, hn⟩ := hex
        rcases List.mem_cons.1 hp with rfl | hp
        · rw [h1] at hn
          simp [h2] at hn
        · exact ⟨p, hp, hn⟩

/-- C109, files that are too small: a pair of units without a weight makes `bipartite` raise `KeyError`. -/
theorem C109_missing {nv nh : Nat} {vs hs : List RbmLabel} (hu : UnitSets nv nh vs hs) {rows : List (List Rat)} {i j : Nat} (hi : i < nv) (hj : j < nh)
    (hmiss : (rows[j]?).bind (fun l => l[i]?) = none) : bipartite vs hs (some (rbmReadWeights rows)) = .error .keyError := by
  refine bipartite_missing (g := MG.empty) _ (valid_empty (L := RbmLabel) (A := Rat)) ⟨(.v i, .h j), ?_, ?_⟩
  · exact mem_pairs.2 ⟨hu.memV.2 ⟨i, hi, rfl⟩, hu.memH.2 ⟨j, hj, rfl⟩⟩
  · have := C109_read rows i j
    rw [hmiss] at this
    exact this

end

namespace Ex

example : bipartite [.v 1, .v 0] [.h 0] (some (rbmReadWeights [[2]])) = .error .keyError :=
  C109_missing (nv := 2) (nh := 1) ⟨List.Perm.swap _ _ _, List.Perm.refl _⟩ (i := 1) (j := 0) (by omega) (by omega) rfl

/-- The call of the demo. -/
def rbmCall (vs hs : List RbmLabel) (draw : Nat → RbmLabel → Rat → Bool) (T : Nat) : Config RbmLabel Rat (Rat × Rat) Int Unit Unit :=
  { rule := some (pureRule (rbmRule vs hs draw)), input := .timesteps T, topology := none, perturbation := none, past := [],
    order := .activitiesFirst, copyNetwork := true,
    compression := false, persistActs := true, persistNet := true, memoize := false, key := none, natLabel := .v,
    labelIdx := fun _ => none, actAttr := fun q => q.1, labelCodec := ⟨fun _ => .ok (), id⟩, attrCodec := ⟨fun _ => .ok (), id⟩,
    valCodec := ⟨fun _ => .ok (), id⟩ }

/-- Two visible units and one hidden unit; a unit is on when its input is positive. -/
example : ∃ N d0 res ds, bipartite [.v 1, .v 0] [.h 0] (some (rbmReadWeights [[2, -3]])) = .ok N ∧
    evolve 3 (rbmCall [.v 1, .v 0] [.h 0] (fun _ _ x => decide (0 < x)) 3) (some (.dict d0)) 0 ⟨[N], ()⟩ = .ok res ∧ res.states.length = 3 ∧
    rbmVisible 2 ds = .ok [[1, 0], [1, 0], [1, 1]] := by
  obtain ⟨vb, hb, N, d0, res, ds, _, _, h3, _, h5, h6, _, h8⟩ := C109_demo (nv := 2) (nh := 1) (by omega) (by omega)
    (vs := [.v 1, .v 0]) (hs := [.h 0]) ⟨List.Perm.swap _ _ _, List.Perm.refl _⟩ (draw := fun _ _ x => decide (0 < x)) (T := 3) (by omega)
    (cfg := rbmCall [.v 1, .v 0] [.h 0] (fun _ _ x => decide (0 < x)) 3) ⟨rfl, rfl, rfl, rfl, rfl, rfl, rfl⟩ rfl
    (rows := [[2, -3]]) (vrows := [[-1], [4]]) (hrows := [[-1]]) (W := fun i _ => [2, -3].getD i 0) (a := fun i => [-1, 4].getD i 0) (b := fun _ => -1)
    (by
      intro i hi j hj
      obtain rfl : j = 0 := by omega
      match i, hi with
      | 0, _ => rfl
      | 1, _ => rfl) (by decide) (by
      intro i hi
      match i, hi with
      | 0, _ => rfl
      | 1, _ => rfl) (by decide) (by
      intro j hj
      obtain rfl : j = 0 := by omega
      rfl) (fun x => decide (x = .v 0)) (fuel := 3) (by omega) ()
  refine ⟨N, d0, res, ds, h3, h5, h6, h8.trans ?_⟩
  congr 1
  decide +kernel

end Ex
end Verif
