import Verif.Model.TSP
import Verif.Spec.TSP
import Verif.Proofs.Copy
/-! # Lemmas on the Hopfield–Tank net -/

namespace Verif
open Spec Lean.Grind

/-! ### Labels and coordinates -/

theorem nodeLabel_inner (n p : Nat) (m : Nat) (hm : m ≤ n) :
    (List.range m).foldl (fun (s : Dict Nat (Nat × Nat) × Nat) (c : Nat) => (s.1.set s.2 (p, c), s.2 + 1))
      ((List.range (p * n)).map (fun x => (x, (x / n, x % n))), p * n) =
    ((List.range (p * n + m)).map (fun x => (x, (x / n, x % n))), p * n + m) := by
  induction m with
  | zero => rfl
  | succ m ih =>
    rw [List.range_succ, List.foldl_append, ih (by omega)]
    simp only [List.foldl_cons, List.foldl_nil]
    rw [Dict.set_of_not_mem, ← Nat.add_assoc, List.range_succ, List.map_append]
    · have h1 : (p * n + m) / n = p := by
        rw [Nat.mul_comm, Nat.mul_add_div (by omega), Nat.div_eq_of_lt (by omega)]; rfl
      have h2 : (p * n + m) % n = m := by
        rw [Nat.mul_comm, Nat.mul_add_mod, Nat.mod_eq_of_lt (by omega)]
      simp [h1, h2]
    · simp [Dict.keys]

theorem nodeLabelMap_eq (n : Nat) : nodeLabelMap n = (List.range (n * n)).map (fun x => (x, (x / n, x % n))) := by
  unfold nodeLabelMap
  suffices h : ∀ m, (List.range m).foldl (fun (s : Dict Nat (Nat × Nat) × Nat) (p : Nat) =>
      (List.range n).foldl (fun (s : Dict Nat (Nat × Nat) × Nat) (c : Nat) => (s.1.set s.2 (p, c), s.2 + 1)) s) ([], 0) =
      ((List.range (m * n)).map (fun x => (x, (x / n, x % n))), m * n) by rw [h]
  intro m
  induction m with
  | zero => simp
  | succ m ih =>
    rw [List.range_succ, List.foldl_append, ih]
    simp only [List.foldl_cons, List.foldl_nil]
    rw [nodeLabel_inner n m n (Nat.le_refl _), Nat.succ_mul]

theorem foldl_set_swap (m : List (Nat × (Nat × Nat))) (c : Dict (Nat × Nat) Nat)
    (h : (c.keys ++ m.map Prod.snd).Nodup) :
    m.foldl (fun c p => c.set p.2 p.1) c = c ++ m.map (fun p => (p.2, p.1)) := by
  induction m generalizing c with
  | nil => simp
  | cons p m ih =>
    have hp : p.2 ∉ c.keys := by
      intro hh
      rw [List.nodup_append] at h
      exact h.2.2 _ hh _ (by simp) rfl
    rw [List.foldl_cons, Dict.set_of_not_mem hp, ih]
    · simp
    · simp only [Dict.keys, List.map_append, List.map_cons, List.map_nil, List.append_assoc] at h ⊢
      exact h

theorem coordinateMap_eq (n : Nat) :
    coordinateMap (nodeLabelMap n) = (List.range (n * n)).map (fun x => ((x / n, x % n), x)) := by
  unfold coordinateMap
  rw [foldl_set_swap, nodeLabelMap_eq]
  · simp
  · rw [nodeLabelMap_eq, List.map_map]
    simp only [Dict.keys, List.map_nil, List.nil_append]
    refine List.pairwise_map.2 (List.nodup_range.imp ?_)
    intro a b hab h
    simp only [Function.comp, Prod.mk.injEq] at h
    apply hab
    rw [← Nat.div_add_mod a n, ← Nat.div_add_mod b n, h.1, h.2]

/-! ### `argmax` -/

theorem argmax_fold {E : Type} {le : E → E → Bool} (htr : ∀ a b c, le a b = true → le b c = true → le a c = true)
    (hto : ∀ a b, (le a b || le b a) = true) (pre vs : List E) (k : Nat) (v : E) (hk : FirstMax le pre k) (hv : pre[k]? = some v) :
    FirstMax le (pre ++ vs)
      (vs.foldl (fun (s : Nat × E × Nat) x => if le x s.2.1 then (s.1, s.2.1, s.2.2 + 1) else (s.2.2, x, s.2.2 + 1))
        (k, v, pre.length)).1 := by
  induction vs generalizing pre k v with
  | nil => simpa using hk
  | cons x vs ih =>
    obtain ⟨v', e1, e2⟩ := hk
    rw [hv] at e1
    cases e1
    have hkl : k < pre.length := by
      by_cases h : k < pre.length
      · exact h
      · rw [List.getElem?_eq_none (by omega)] at hv; cases hv
    rw [List.foldl_cons, show pre ++ x :: vs = (pre ++ [x]) ++ vs by simp]
    by_cases h : le x v = true
    · simp only [h, if_true]
      have := ih (pre ++ [x]) k v ⟨v, by rw [List.getElem?_append_left hkl]; exact hv, ?_⟩
        (by rw [List.getElem?_append_left hkl]; exact hv)
      · simpa using this
      · intro j w hw
        by_cases hj : j < pre.length
        · rw [List.getElem?_append_left hj] at hw
          exact e2 j w hw
        · rw [List.getElem?_append_right (by omega)] at hw
          cases hjj : j - pre.length with
          | zero =>
            rw [hjj] at hw
            cases hw
            exact ⟨h, fun hlt => by omega⟩
          | succ _ => rw [hjj] at hw; cases hw
    · simp only [h]
      have hvx : le v x = true := by
        have := hto x v
        simp only [Bool.or_eq_true] at this
        rcases this with h' | h'
        · exact absurd h' h
        · exact h'
      have := ih (pre ++ [x]) pre.length x ⟨x, by simp, ?_⟩ (by simp)
      · simpa using this
      · intro j w hw
        by_cases hj : j < pre.length
        · rw [List.getElem?_append_left hj] at hw
          refine ⟨htr _ _ _ (e2 j w hw).1 hvx, fun _ hxw => ?_⟩
          exact h (htr _ _ _ hxw (e2 j w hw).1)
        · rw [List.getElem?_append_right (by omega)] at hw
          cases hjj : j - pre.length with
          | zero =>
            rw [hjj] at hw
            cases hw
            refine ⟨?_, fun hlt => by omega⟩
            have := hto x x
            simpa using this
          | succ _ => rw [hjj] at hw; cases hw

theorem argmax_spec {E : Type} {le : E → E → Bool} (htr : ∀ a b c, le a b = true → le b c = true → le a c = true)
    (hto : ∀ a b, (le a b || le b a) = true) {row : List E} (h : row ≠ []) :
    ∃ k, argmax le row = .ok k ∧ FirstMax le row k := by
  cases row with
  | nil => exact absurd rfl h
  | cons v vs =>
    refine ⟨_, rfl, ?_⟩
    have := argmax_fold htr hto [v] vs 0 v ⟨v, rfl, ?_⟩ rfl
    · simpa using this
    · intro j w hw
      cases j with
      | zero =>
        cases hw
        refine ⟨by simpa using hto v v, fun h => by omega⟩
      | succ j => cases hw

/-! ### Positions -/

/-- The claimed positions are different: the dict is the list of pairs. -/
theorem tourPositions_ok {E : Type} {le : E → E → Bool} (rows : List (List E)) (ks : List Nat) (i0 : Nat) (d : Dict Nat Nat)
    (hk : rows.map (argmax le) = ks.map .ok) (hnd : (d.keys ++ ks).Nodup) :
    (rows.zipIdx i0).foldlM (claimStep le) d = .ok (d ++ ks.zipIdx i0) := by
  induction rows generalizing ks i0 d with
  | nil =>
    cases ks with
    | nil => simp [pure, Except.pure]
    | cons k ks => simp at hk
  | cons row rows ih =>
    cases ks with
    | nil => simp at hk
    | cons k ks =>
      simp only [List.map_cons, List.cons.injEq] at hk
      have hp : k ∉ d.keys := by
        intro hh
        rw [List.nodup_append] at hnd
        exact hnd.2.2 _ hh _ (by simp) rfl
      rw [List.zipIdx_cons, List.foldlM_cons]
      simp only [claimStep, hk.1, Dict.has_eq_false_iff.2 hp, Bool.false_eq_true, if_false, bind, Except.bind]
      rw [Dict.set_of_not_mem hp, ih ks (i0 + 1) _ hk.2]
      · simp
      · simp only [Dict.keys, List.map_append, List.map_cons, List.map_nil, List.append_assoc] at hnd ⊢
        exact hnd

/-- Some position is claimed twice: an exception. -/
theorem tourPositions_error {E : Type} {le : E → E → Bool} (rows : List (List E)) (ks : List Nat) (i0 : Nat) (d : Dict Nat Nat)
    (hk : rows.map (argmax le) = ks.map .ok) (hd : d.keys.Nodup) (hnd : ¬ (d.keys ++ ks).Nodup) :
    (rows.zipIdx i0).foldlM (claimStep le) d = .error (.exception "a point has already claimed a position in the tour") := by
  induction rows generalizing ks i0 d with
  | nil =>
    cases ks with
    | nil => simp only [List.append_nil] at hnd; exact absurd hd hnd
    | cons k ks => simp at hk
  | cons row rows ih =>
    cases ks with
    | nil => simp at hk
    | cons k ks =>
      simp only [List.map_cons, List.cons.injEq] at hk
      rw [List.zipIdx_cons, List.foldlM_cons]
      by_cases hp : k ∈ d.keys
      · simp only [claimStep, hk.1, Dict.has_iff.2 hp, if_true]
        rfl
      · simp only [claimStep, hk.1, Dict.has_eq_false_iff.2 hp, Bool.false_eq_true, if_false, bind, Except.bind]
        rw [Dict.set_of_not_mem hp]
        refine ih ks (i0 + 1) _ hk.2 ?_ ?_
        · simp only [Dict.keys, List.map_append, List.map_cons, List.map_nil]
          rw [List.nodup_append]
          refine ⟨hd, by simp, ?_⟩
          intro a ha b hb hab
          simp only [List.mem_singleton] at hb
          subst hb; subst hab
          exact hp ha
        · simp only [Dict.keys, List.map_append, List.map_cons, List.map_nil, List.append_assoc] at hnd ⊢
          exact hnd

/-! ### Distances -/

section
variable {R : Type} [CommRing R]

theorem distances_fold (D : Nat → Nat → R) (hs : ∀ i j, D i j = D j i) (h0 : ∀ i, D i i = 0) (ds : List (Nat × Nat × R))
    (hd : ∀ t ∈ ds, t.2.2 = D t.1 t.2.1) (m : Dict (Nat × Nat) R) (hm : ∀ k v, m.get? k = some v → v = D k.1 k.2)
    (a b : Nat) :
    (∀ v, (ds.foldl distStep m).get? (a, b) = some v → v = D a b) ∧
    ((ds.foldl distStep m).get? (a, b) ≠ none ↔ m.get? (a, b) ≠ none ∨ ∃ t ∈ ds,
      (a, b) = (t.1, t.2.1) ∨ (a, b) = (t.2.1, t.1) ∨ (a, b) = (t.1, t.1) ∨ (a, b) = (t.2.1, t.2.1)) := by
  induction ds generalizing m with
  | nil => exact ⟨hm (a, b), by simp⟩
  | cons t ds ih =>
    have ht := hd t (by simp)
    have hstep : ∀ k v, (distStep m t).get? k = some v → v = D k.1 k.2 := by
      intro k v
      simp only [distStep, Dict.get?_set]
      intro h
      split at h
      · rename_i e; cases h; rw [← e]; exact (h0 _).symm
      · split at h
        · rename_i e; cases h; rw [← e]; exact (h0 _).symm
        · split at h
          · rename_i e; cases h; rw [← e, ht, hs]
          · split at h
            · rename_i e; cases h; rw [← e, ht]
            · exact hm k v h
    obtain ⟨i1, i2⟩ := ih (fun t ht => hd t (by simp [ht])) _ hstep
    rw [List.foldl_cons]
    refine ⟨i1, ?_⟩
    rw [i2]
    have hk : (distStep m t).get? (a, b) ≠ none ↔ m.get? (a, b) ≠ none ∨
        ((a, b) = (t.1, t.2.1) ∨ (a, b) = (t.2.1, t.1) ∨ (a, b) = (t.1, t.1) ∨ (a, b) = (t.2.1, t.2.1)) := by
      simp only [distStep, Dict.get?_set]
      split
      · rename_i e; simp [e]
      · split
        · rename_i e; simp [e]
        · split
          · rename_i e; simp [e]
          · split
            · rename_i e; simp [e]
            · rename_i e1 e2 e3 e4
              constructor
              · exact Or.inl
              · rintro (h | h | h | h | h)
                · exact h
                · exact absurd h.symm e4
                · exact absurd h.symm e3
                · exact absurd h.symm e2
                · exact absurd h.symm e1
    rw [hk]
    simp only [List.mem_cons, exists_eq_or_imp]
    constructor
    · rintro ((h | h) | h)
      · exact Or.inl h
      · exact Or.inr (Or.inl h)
      · exact Or.inr (Or.inr h)
    · rintro (h | h | h)
      · exact Or.inl (Or.inl h)
      · exact Or.inl (Or.inr h)
      · exact Or.inr h

/-! ### Sums -/

/-- The sum of a list. -/
def lsum (l : List R) : R := l.foldr (· + ·) 0

theorem lsum_perm {l l' : List R} (h : l.Perm l') : lsum l = lsum l' := by
  induction h with
  | nil => rfl
  | cons x _ ih => simp only [lsum, List.foldr_cons] at ih ⊢; rw [ih]
  | swap x y l => simp only [lsum, List.foldr_cons]; grind
  | trans _ _ ih1 ih2 => exact ih1.trans ih2

theorem lsum_append (l l' : List R) : lsum (l ++ l') = lsum l + lsum l' := by
  induction l with
  | nil => simp only [lsum, List.nil_append, List.foldr_nil]; grind
  | cons a l ih => simp only [lsum, List.cons_append, List.foldr_cons] at ih ⊢; rw [ih]; grind

theorem foldl_add (l : List R) (a : R) : l.foldl (· + ·) a = a + lsum l := by
  induction l generalizing a with
  | nil => simp only [lsum, List.foldl_nil, List.foldr_nil]; grind
  | cons x l ih => rw [List.foldl_cons, ih]; simp only [lsum, List.foldr_cons]; grind

theorem lsum_range (n : Nat) (f : Nat → R) : lsum ((List.range n).map f) = rsum n f := by
  induction n with
  | zero => rfl
  | succ n ih =>
    rw [List.range_succ, List.map_append, lsum_append, ih]
    simp only [lsum, rsum, List.map_cons, List.map_nil, List.foldr_cons, List.foldr_nil]
    grind

theorem rsum_congr {n : Nat} {f g : Nat → R} (h : ∀ i, i < n → f i = g i) : rsum n f = rsum n g := by
  induction n with
  | zero => rfl
  | succ n ih => simp only [rsum]; rw [ih (fun i hi => h i (by omega)), h n (by omega)]

theorem rsum_zero (n : Nat) : rsum n (fun _ => (0 : R)) = 0 := by
  induction n with
  | zero => rfl
  | succ n ih => simp only [rsum]; rw [ih]; grind

theorem rsum_add (m k : Nat) (f : Nat → R) : rsum (m + k) f = rsum m f + rsum k (fun i => f (m + i)) := by
  induction k with
  | zero => simp only [rsum, Nat.add_zero]; grind
  | succ k ih => rw [← Nat.add_assoc]; simp only [rsum]; rw [ih]; grind

theorem rsum_single {n k : Nat} (hk : k < n) (f : Nat → R) : rsum n (fun i => if i = k then f i else 0) = f k := by
  induction n with
  | zero => omega
  | succ n ih =>
    simp only [rsum]
    by_cases h : n = k
    · subst h
      rw [if_pos rfl, rsum_congr (g := fun _ => 0) (fun i hi => if_neg (by omega)), rsum_zero]; grind
    · rw [if_neg h, ih (by omega)]; grind

/-- A sum over all labels, row by row. -/
theorem rsum_grid (m n : Nat) (f : Nat → R) : rsum (m * n) f = rsum m (fun p => rsum n (fun c => f (p * n + c))) := by
  induction m with
  | zero => simp [rsum]
  | succ m ih => rw [Nat.succ_mul, rsum_add, ih]; rfl

end
end Verif
