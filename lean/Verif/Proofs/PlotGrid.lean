import Verif.Model.PlotGrid
import Verif.Spec.PlotGrid
import Verif.Props.TuringPlot
import Verif.Props.VisData
/-! # Lemmas about the pictures -/

namespace Verif
open Verif.Spec

theorem npArange_half (n : Nat) :
    npArange (-1 / 2) (n : Rat) = (List.range (n + 1)).map (fun (k : Nat) => (k : Rat) - 1 / 2) := by
  have h : ((n : Rat) - (-1 / 2)).ceil = ((n + 1 : Nat) : Int) := by
    have h1 : ((n : Rat) - (-1 / 2)).ceil ≤ ((n + 1 : Nat) : Int) := by
      rw [Rat.ceil_le_iff]
      rw [Rat.intCast_natCast, Rat.natCast_add]
      grind
    have h2 : ((n : Nat) : Int) < ((n : Rat) - (-1 / 2)).ceil := by
      rw [Rat.lt_ceil_iff, Rat.intCast_natCast]
      grind
    omega
  unfold npArange
  rw [h, Int.toNat_natCast]
  apply List.map_congr_left
  intro k _
  grind

theorem mem_ticks (n : Nat) (hn : 0 < n) (x : Rat) : x ∈ npArange (-1 / 2) (n : Rat) ↔ CellBorder n x := by
  rw [npArange_half, List.mem_map]
  constructor
  · rintro ⟨k, hk, rfl⟩
    rw [List.mem_range] at hk
    cases k with
    | zero => exact ⟨0, hn, Or.inl rfl⟩
    | succ k =>
      refine ⟨k, by omega, Or.inr ?_⟩
      rw [Rat.natCast_add]
      grind
  · rintro ⟨j, hj, h | h⟩
    · exact ⟨j, by rw [List.mem_range]; omega, h.symm⟩
    · refine ⟨j + 1, by rw [List.mem_range]; omega, ?_⟩
      rw [h, Rat.natCast_add]
      grind

theorem ticks_sorted (n : Nat) : (npArange (-1 / 2) (n : Rat)).Pairwise (· < ·) := by
  rw [npArange_half, List.pairwise_map]
  refine (List.pairwise_lt_range (n := n + 1)).imp ?_
  intro a b h
  have : (a : Rat) < (b : Rat) := by exact_mod_cast h
  grind

theorem ticks_getLast (n : Nat) : (npArange (-1 / 2) (n : Rat)).getLast? = some ((n : Rat) - 1 / 2) := by
  rw [npArange_half, List.range_succ, List.map_append, List.map_singleton, List.getLast?_concat]

theorem mem_annotationTexts {X : Type} (l : List (List X)) (x y : Nat) (s : X) :
    (x, y, s) ∈ annotationTexts (some l) ↔ pixel l y x = some s := by
  simp only [annotationTexts, List.mem_flatMap, List.mem_map, pixel]
  constructor
  · rintro ⟨p, hp, q, hq, he⟩
    simp only [Prod.mk.injEq] at he
    obtain ⟨rfl, rfl, rfl⟩ := he
    have h1 := List.mem_zipIdx_iff_getElem?.1 hp
    have h2 := List.mem_zipIdx_iff_getElem?.1 hq
    rw [h1]; exact h2
  · intro h
    cases hr : l[y]? with
    | none => rw [hr] at h; cases h
    | some row =>
      rw [hr] at h
      exact ⟨(row, y), List.mem_zipIdx_iff_getElem?.2 hr, (s, x), List.mem_zipIdx_iff_getElem?.2 h, rfl⟩

theorem nodup_annotationTexts {X : Type} (l : List (List X)) :
    ((annotationTexts (some l)).map (fun t => (t.1, t.2.1))).Nodup := by
  simp only [annotationTexts, List.map_flatMap, List.map_map, Function.comp_def]
  have hrow : ∀ (row : List X) (y : Nat), (row.zipIdx.map (fun q => (q.2, y))).Nodup := by
    intro row y
    have : (row.zipIdx.map Prod.snd).Nodup := by
      rw [List.zipIdx_map_snd]
      exact List.nodup_range'
    unfold List.Nodup at this ⊢
    rw [List.pairwise_map] at this ⊢
    exact this.imp (fun h e => h (by simpa using congrArg Prod.fst e))
  have hall : ∀ (l : List (List X)) (k : Nat),
      ((l.zipIdx k).flatMap (fun p => p.1.zipIdx.map (fun q => (q.2, p.2)))).Nodup ∧
      ∀ t ∈ (l.zipIdx k).flatMap (fun p => p.1.zipIdx.map (fun q => (q.2, p.2))), k ≤ t.2 := by
    intro l
    induction l with
    | nil => intro k; simp
    | cons row l ih =>
      intro k
      rw [List.zipIdx_cons, List.flatMap_cons]
      obtain ⟨h1, h2⟩ := ih (k + 1)
      refine ⟨List.nodup_append.2 ⟨hrow row k, h1, ?_⟩, ?_⟩
      · rintro a ha b hb rfl
        have := h2 a hb
        obtain ⟨q, _, rfl⟩ := List.mem_map.1 ha
        simp at this
        omega
      · intro t ht
        rcases List.mem_append.1 ht with h | h
        · obtain ⟨q, _, rfl⟩ := List.mem_map.1 h
          exact Nat.le_refl _
        · have := h2 t h
          omega
  exact (hall l 0).1

/-- Where the cells of a state come from. -/
theorem animationGrid_image {V : Type} (r c : Nat) (row : List V) (h : row.length = r * c) :
    IsImage (animationGrid r c row) r c ∧ ∀ i j, j < c → i < r → pixel (animationGrid r c row) i j = row[i * c + j]? := by
  refine ⟨⟨by simp [animationGrid], ?_⟩, ?_⟩
  · intro l hl
    simp only [animationGrid, List.mem_map, List.mem_range] at hl
    obtain ⟨a, ha, rfl⟩ := hl
    rw [List.length_take, List.length_drop, h]
    have : (a + 1) * c ≤ r * c := Nat.mul_le_mul_right c ha
    rw [Nat.add_mul, Nat.one_mul] at this
    omega
  · intro i j hj hi
    simp only [pixel, animationGrid, List.getElem?_map, List.getElem?_range hi, Option.map_some]
    rw [List.getElem?_take, if_pos hj, List.getElem?_drop]

/-- The row of the activities of nodes `0, ..., n - 1`. -/
theorem activityRow_values {V : Type} (d : Dict Nat V) (n : Nat) (h : NodeValues d n) :
    (activityRow (fun a b => decide (a ≤ b)) d).length = n ∧
      ∀ i, (activityRow (fun a b => decide (a ≤ b)) d)[i]? = if i < n then d.get? i else none := by
  unfold NodeValues at h
  have hsort : d.keys.mergeSort (fun a b => decide (a ≤ b)) = List.range n := by
    have hs : (d.keys.mergeSort (fun a b => decide (a ≤ b))).Pairwise (fun a b => a ≤ b) := by
      have := List.pairwise_mergeSort (le := fun (a b : Nat) => decide (a ≤ b)) (by intro a b c; simp; omega)
        (by intro a b; simp; omega) d.keys
      exact this.imp (fun h => by simpa using h)
    refine List.Perm.eq_of_pairwise (le := fun a b => a ≤ b) ?_ hs ?_ ((List.mergeSort_perm _ _).trans h)
    · intro a b _ _ h1 h2; omega
    · exact (List.pairwise_lt_range (n := n)).imp (fun h => by omega)
  have hget : ∀ i, i < n → ∃ v, d.get? i = some v := by
    intro i hi
    exact Dict.exists_get?_of_mem_keys (h.mem_iff.2 (List.mem_range.2 hi))
  unfold activityRow
  rw [hsort]
  have key : ∀ m, m ≤ n → ((List.range m).filterMap d.get?).length = m ∧
      ∀ i, ((List.range m).filterMap d.get?)[i]? = if i < m then d.get? i else none := by
    intro m
    induction m with
    | zero => intro _; simp
    | succ m ih =>
      intro hm
      obtain ⟨h1, h2⟩ := ih (by omega)
      obtain ⟨v, hv⟩ := hget m (by omega)
      rw [List.range_succ, List.filterMap_append]
      simp only [List.filterMap_cons, hv, List.filterMap_nil]
      refine ⟨by simp [h1], fun i => ?_⟩
      rw [List.getElem?_append, h1]
      by_cases h : i < m
      · rw [if_pos h, if_pos (by omega), h2, if_pos h]
      · rw [if_neg h]
        by_cases h' : i = m
        · subst h'; rw [if_pos (by omega), hv]; simp
        · rw [if_neg (by omega), List.getElem?_eq_none (by simp; omega)]
  exact key n (Nat.le_refl n)

end Verif
