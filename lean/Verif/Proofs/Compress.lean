import Verif.Props.TuringPlot
import Verif.Model.TuringUniversal
import Verif.Spec.Line
/-! # The rows kept by the demo of the universal Turing machine -/

namespace Verif
open Spec

section
variable {Q S W : Type} [DecidableEq W]

theorem find_annot {row : List (Option W)} {p : Nat} {v : W} (hp : p < row.length)
    (h : ∀ x, x < row.length → row[x]? = some (if x = p then some v else none)) (u : W) :
    row.findIdx? (fun x => decide (x = some u)) = if v = u then some p else none := by
  by_cases hv : v = u
  · rw [if_pos hv, List.findIdx?_eq_some_iff_getElem]
    refine ⟨hp, ?_, ?_⟩
    · have := h p hp
      rw [List.getElem?_eq_getElem hp, if_pos rfl] at this
      rw [Option.some.inj this, hv]
      simp
    · intro j hj
      have := h j (by omega)
      rw [List.getElem?_eq_getElem (by omega), if_neg (by omega)] at this
      rw [Option.some.inj this]
      simp
  · rw [if_neg hv, List.findIdx?_eq_none_iff]
    intro x hx
    obtain ⟨j, hj, rfl⟩ := List.getElem_of_mem hx
    have := h j hj
    rw [List.getElem?_eq_getElem hj] at this
    rw [Option.some.inj this]
    split
    · simp [hv]
    · simp

theorem headIdx_ok {row : List (Option W)} {p : Nat} {v up down : W} (hp : p < row.length)
    (h : ∀ x, x < row.length → row[x]? = some (if x = p then some v else none)) (hv : v = up ∨ v = down) :
    headIdx up down row = .ok p := by
  unfold headIdx
  rw [find_annot hp h up, find_annot hp h down]
  by_cases h1 : v = up
  · rw [if_pos h1]
  · rw [if_neg h1, if_pos (hv.resolve_left h1)]

/-- `far` is the greatest of 0 and the values before `i`. -/
def Farthest (f : Nat → Nat) (i far : Nat) : Prop := ∀ x, far < x ↔ 0 < x ∧ ∀ s, s < i → f s < x

/-- The rows kept are those at the records of the position of the head. -/
theorem compress_records {str : Q → W} {c : Nat → Conf Q S} {T n : Nat} {ann : List (List (Option W))} (ht : HeadTable str c T n ann)
    (hpos : ∀ t, t < T → (c t).pos < n) (up down : Q) (hst : ∀ t, t < T → (c t).state = up ∨ (c t).state = down) :
    compress (str up) (str down) ((List.range T).map (fun t => (c t).tape)) 0 0 ann =
      .ok ((records (fun t => (c t).pos) T).map (fun t => (c t).tape), (records (fun t => (c t).pos) T).map (fun t => ann[t]?.getD [])) := by
  have key : ∀ (m i far : Nat), i + m = T → Farthest (fun t => (c t).pos) i far →
      compress (str up) (str down) ((List.range T).map (fun t => (c t).tape)) i far (ann.drop i) =
        .ok (((List.range' i m).filter (fun t => decide (0 < (c t).pos ∧ ∀ s, s < t → (c s).pos < (c t).pos))).map (fun t => (c t).tape),
          ((List.range' i m).filter (fun t => decide (0 < (c t).pos ∧ ∀ s, s < t → (c s).pos < (c t).pos))).map (fun t => ann[t]?.getD [])) := by
    intro m
    induction m with
    | zero =>
      intro i far hi _
      rw [List.drop_eq_nil_of_le (by rw [ht.1]; omega)]
      rfl
    | succ m ih =>
      intro i far hi hfar
      obtain ⟨row, r1, r2, r3⟩ := ht.2 i (by omega)
      have hlt : i < ann.length := by rw [ht.1]; omega
      have hrow : ann[i] = row := by
        rw [List.getElem?_eq_getElem hlt] at r1
        exact Option.some.inj r1
      rw [List.drop_eq_getElem_cons hlt, hrow, compress]
      have hidx : headIdx (str up) (str down) row = .ok (c i).pos := by
        apply headIdx_ok (v := str (c i).state) (by rw [r2]; exact hpos i (by omega)) (fun x hx => r3 x (by omega))
        rcases hst i (by omega) with h | h
        · left; rw [h]
        · right; rw [h]
      rw [hidx]
      simp only []
      by_cases hk : far < (c i).pos
      · have hcond := (hfar _).1 hk
        rw [if_pos hk, List.getElem?_map, List.getElem?_range (by omega), Option.map_some]
        simp only []
        rw [ih (i + 1) (c i).pos (by omega) (by
          intro x
          constructor
          · intro h
            refine ⟨by omega, fun s hs => ?_⟩
            rcases Nat.lt_or_ge s i with h1 | h1
            · exact Nat.lt_trans (hcond.2 s h1) h
            · have : s = i := by omega
              subst this
              exact h
          · intro h
            exact h.2 i (by omega))]
        rw [List.range'_succ, List.filter_cons_of_pos (by simpa using hcond), List.map_cons, List.map_cons, r1]
        rfl
      · have hcond : ¬ (0 < (c i).pos ∧ ∀ s, s < i → (c s).pos < (c i).pos) := fun h => hk ((hfar _).2 h)
        rw [if_neg hk, ih (i + 1) far (by omega) (by
          intro x
          constructor
          · intro h
            refine ⟨by omega, fun s hs => ?_⟩
            rcases Nat.lt_or_ge s i with h1 | h1
            · exact ((hfar x).1 h).2 s h1
            · have : s = i := by omega
              subst this
              show (c s).pos < x
              omega
          · intro h
            exact (hfar x).2 ⟨h.1, fun s hs => h.2 s (by omega)⟩)]
        rw [List.range'_succ, List.filter_cons_of_neg (by simpa using hcond)]
  have := key T 0 0 (by omega) (fun x => ⟨fun h => ⟨h, fun s hs => by omega⟩, fun h => h.1⟩)
  rw [List.drop_zero, ← List.range_eq_range'] at this
  exact this

/-- A sequence that is bounded by its last record has no further records; used to list all records. -/
theorem records_of {f g : Nat → Nat} {K T : Nat} (hg : ∀ k, k ≤ K → g k < T) (hmono : ∀ k, k < K → g k < g (k + 1)) (h0 : g 0 = 0)
    (hpos : 0 < f 0) (hval : ∀ k, k ≤ K → f (g k) = f 0 + k)
    (hbet : ∀ k, k ≤ K → ∀ t, g k ≤ t → t < T → (k < K → t < g (k + 1)) → f t ≤ f 0 + k) :
    records f T = (List.range (K + 1)).map g := by
  have htop : ∀ k, k ≤ K → ∀ t, t < T → (k < K → t < g (k + 1)) → f t ≤ f 0 + k := by
    intro k
    induction k with
    | zero => intro hk t ht h; exact hbet 0 hk t (by omega) ht h
    | succ k ih =>
      intro hk t ht h
      rcases Nat.lt_or_ge t (g (k + 1)) with h1 | h1
      · have := ih (by omega) t ht (fun _ => h1); omega
      · exact hbet (k + 1) hk t h1 ht h
  have hmono' : ∀ j k, j < k → k ≤ K → g j < g k := by
    intro j k
    induction k with
    | zero => intro h; omega
    | succ k ih =>
      intro h1 h2
      rcases Nat.lt_or_ge j k with h3 | h3
      · exact Nat.lt_trans (ih h3 (by omega)) (hmono k (by omega))
      · have : j = k := by omega
        subst this
        exact hmono j (by omega)
  have hrec : ∀ t, t < T → ((0 < f t ∧ ∀ s, s < t → f s < f t) ↔ ∃ k, k ≤ K ∧ t = g k) := by
    intro t ht
    constructor
    · rintro ⟨h1, h2⟩
      have : ∀ k, k ≤ K → (k < K → t < g (k + 1)) → ∃ k, k ≤ K ∧ t = g k := by
        intro k
        induction k with
        | zero =>
          intro hk h
          refine ⟨0, hk, ?_⟩
          rw [h0]
          apply Nat.le_antisymm _ (Nat.zero_le _)
          apply Nat.le_of_not_lt
          intro hlt
          have := h2 0 hlt
          have := hbet 0 hk t (by omega) ht h
          omega
        | succ k ih =>
          intro hk h
          rcases Nat.lt_or_ge t (g (k + 1)) with h3 | h3
          · exact ih (by omega) (fun _ => h3)
          · refine ⟨k + 1, hk, ?_⟩
            apply Nat.le_antisymm _ h3
            apply Nat.le_of_not_lt
            intro hlt
            have a1 := h2 _ hlt
            have a2 := hval (k + 1) hk
            have a3 := hbet (k + 1) hk t h3 ht h
            omega
      exact this K (Nat.le_refl _) (fun h => absurd h (Nat.lt_irrefl _))
    · rintro ⟨k, hk, rfl⟩
      refine ⟨by rw [hval k hk]; omega, fun s hs => ?_⟩
      rw [hval k hk]
      cases k with
      | zero => omega
      | succ k =>
        have := htop k (by omega) s (by omega) (fun _ => hs)
        omega
  apply List.Perm.eq_of_pairwise (le := (· < ·))
  · intro a b _ _ h1 h2; omega
  · exact List.Pairwise.filter _ List.pairwise_lt_range
  · rw [List.pairwise_map]
    refine (List.pairwise_lt_range (n := K + 1)).imp_of_mem ?_
    intro a b ha hb hab
    exact hmono' a b hab (by have := List.mem_range.1 hb; omega)
  · rw [List.perm_ext_iff_of_nodup]
    · intro t
      simp only [records, List.mem_filter, List.mem_range, decide_eq_true_eq, List.mem_map]
      constructor
      · rintro ⟨h1, h2⟩
        obtain ⟨k, hk, rfl⟩ := (hrec t h1).1 h2
        exact ⟨k, by omega, rfl⟩
      · rintro ⟨k, hk, rfl⟩
        exact ⟨hg k (by omega), (hrec _ (hg k (by omega))).2 ⟨k, by omega, rfl⟩⟩
    · exact List.Pairwise.filter _ List.nodup_range
    · rw [List.nodup_iff_pairwise_ne, List.pairwise_map]
      refine (List.pairwise_lt_range (n := K + 1)).imp_of_mem ?_
      intro a b ha hb hab h
      have := hmono' a b hab (by have := List.mem_range.1 hb; omega)
      omega

end
end Verif
