import Verif.Props.PlotGrid
/-! # C126: the images of `plot_grid` and `plot_grid_multiple`, called on rows -/

namespace Verif
open Verif.Spec

section
variable {V X : Type}

theorem gridOf_image (l : List (List V)) (rows cols : Nat) (hl : ∀ row ∈ l, row.length = rows * cols) (slice : Int)
    (h1 : -(l.length : Int) ≤ slice) (h2 : slice < l.length) :
    ∃ image row, gridOf l [rows, cols] slice = .ok image ∧ l[(slice % l.length).toNat]? = some row ∧ IsImage image rows cols ∧
      ∀ i j, i < rows → j < cols → pixel image i j = row[i * cols + j]? := by
  have hp : (slice % l.length).toNat < l.length := by
    have := Int.emod_nonneg slice (b := l.length) (by omega)
    have := Int.emod_lt_of_pos slice (b := l.length) (by omega)
    omega
  obtain ⟨g1, g2⟩ := animationGrid_image rows cols _ (hl _ (List.getElem_mem hp))
  refine ⟨_, _, ?_, List.getElem?_eq_getElem hp, g1, fun i j hi hj => g2 i j hj hi⟩
  unfold gridOf
  simp only
  rw [if_pos (by rw [List.all_eq_true]; exact fun row hr => decide_eq_true (hl row hr))]
  unfold pyGet
  rw [List.length_map, pyIndex_emod h1 h2]
  simp only [List.getElem?_map, List.getElem?_eq_getElem hp, Option.map_some]

/-- C126.  `plot_grid` with a shape of two numbers shows the row number `slice` (from the end if negative) in that shape, with the
annotations in their cells. -/
theorem C126_plot_grid (l : List (List V)) (rows cols : Nat) (hpos : 0 < rows) (hl : ∀ row ∈ l, row.length = rows * cols)
    (slice : Int) (h1 : -(l.length : Int) ≤ slice) (h2 : slice < l.length) (ann : Option (List (List X))) (grid : Bool) :
    ∃ pic row, plotGrid l (some [rows, cols]) slice ann grid = .ok pic ∧ l[(slice % l.length).toNat]? = some row ∧
      IsImage pic.image rows cols ∧ (∀ i j, i < rows → j < cols → pixel pic.image i j = row[i * cols + j]?) ∧
      ∀ i j s, (j, i, s) ∈ pic.texts ↔ ∃ a, ann = some a ∧ pixel a i j = some s := by
  obtain ⟨image, row, e, hr, g1, g2⟩ := gridOf_image l rows cols hl slice h1 h2
  obtain ⟨t, ht⟩ : ∃ t, gridTicks image grid = .ok t := by
    unfold gridTicks
    cases grid with
    | false => exact ⟨_, rfl⟩
    | true =>
      cases image with
      | nil => have := g1.1; simp at this; omega
      | cons => exact ⟨_, rfl⟩
  refine ⟨⟨image, annotationTexts ann, t⟩, row, ?_, hr, g1, g2, ?_⟩
  · unfold plotGrid
    simp only
    rw [e]
    simp only [drawGrid, ht]
  · intro i j s
    cases ann with
    | none => simp [annotationTexts]
    | some a => simpa using mem_annotationTexts a j i s

/-- C126.  `plot_grid` without a shape shows all rows, whatever the slice. -/
theorem C126_plot_grid_all (l : List (List V)) (hne : l ≠ []) (slice : Int) (ann : Option (List (List X))) (grid : Bool) :
    ∃ pic, plotGrid l none slice ann grid = .ok pic ∧ pic.image = l ∧
      ∀ i j s, (j, i, s) ∈ pic.texts ↔ ∃ a, ann = some a ∧ pixel a i j = some s := by
  obtain ⟨t, ht⟩ : ∃ t, gridTicks l grid = .ok t := by
    unfold gridTicks
    cases grid with
    | false => exact ⟨_, rfl⟩
    | true =>
      cases l with
      | nil => exact absurd rfl hne
      | cons => exact ⟨_, rfl⟩
  refine ⟨⟨l, annotationTexts ann, t⟩, ?_, rfl, ?_⟩
  · unfold plotGrid
    simp only [drawGrid, ht]
  · intro i j s
    cases ann with
    | none => simp [annotationTexts]
    | some a => simpa using mem_annotationTexts a j i s

/-- C126.  One figure of `plot_grid_multiple`: with a shape of two numbers it shows the row number `slice` of its automaton, without a
shape all rows. -/
theorem C126_figure (l : List (List V)) (k : Nat) (titles : List X) (t : X) (hk : titles[k]? = some t) (slice : Int) :
    figureOf none slice (some titles) (l, k) = .ok (some t, l) ∧
    ∀ (rows cols : Nat), (∀ row ∈ l, row.length = rows * cols) → -(l.length : Int) ≤ slice → slice < l.length →
      ∃ image row, figureOf (some [rows, cols]) slice (some titles) (l, k) = .ok (some t, image) ∧
        figureOf (some [rows, cols]) slice (none : Option (List X)) (l, k) = .ok (none, image) ∧
        l[(slice % l.length).toNat]? = some row ∧ IsImage image rows cols ∧
        ∀ i j, i < rows → j < cols → pixel image i j = row[i * cols + j]? := by
  obtain ⟨hlt, ht⟩ := List.getElem?_eq_some_iff.1 hk
  have e0 : pyGet titles (k : Int) = .ok t := by rw [pyGet_natCast titles hlt, ht]
  refine ⟨?_, ?_⟩
  · simp only [figureOf, figureImage]
    rw [e0]
  · intro rows cols hl h1 h2
    obtain ⟨image, row, e, hr, g1, g2⟩ := gridOf_image l rows cols hl slice h1 h2
    refine ⟨image, row, ?_, ?_, hr, g1, g2⟩
    · simp only [figureOf, figureImage]
      rw [e0, e]
    · simp only [figureOf, figureImage]
      rw [e]

end

/-- The last of two rows, as a grid of one row and two columns. -/
example : ∃ pic, plotGrid (X := Int) [[1, 2], [(3 : Int), 4]] (some [1, 2]) (-1) none true = .ok pic ∧ pixel pic.image 0 1 = some 4 := by
  obtain ⟨pic, row, h, hr, _, hp, _⟩ := C126_plot_grid (X := Int) [[1, 2], [(3 : Int), 4]] 1 2 (by decide) (by decide) (-1) (by decide) (by decide) none true
  refine ⟨pic, h, ?_⟩
  rw [hp 0 1 (by decide) (by decide)]
  cases hr
  rfl

end Verif
