import Verif.Model.Langton
import Verif.Spec.Langton
/-! # Lemmas on `init_loops` -/

namespace Verif
open Spec

theorem pyIndex_iff {n p : Nat} {k : Int} : pyIndex n k = some p ↔ Addresses n k p := by
  unfold pyIndex Addresses
  split
  · rw [Option.some.injEq]; omega
  · split
    · rw [Option.some.injEq]; omega
    · constructor
      · intro h; cases h
      · omega

/-- The grid has `rows` rows of `cols` cells. -/
def Shaped {α : Type} (rows cols : Nat) (g : List (List α)) : Prop := g.length = rows ∧ ∀ r ∈ g, r.length = cols

/-- A cell of a grid. -/
def gridAt {α : Type} (g : List (List α)) (a b : Nat) : Option α := (g[a]?).bind (fun r => r[b]?)

theorem assignCell_ok {rows cols : Nat} {g : List (List Nat)} (hg : Shaped rows cols g) {r c : Int} {v a b : Nat}
    (ha : Addresses rows r a) (hb : Addresses cols c b) :
    ∃ g', assignCell g r c v = .ok g' ∧ Shaped rows cols g' ∧
      ∀ a' b', gridAt g' a' b' = if a' = a ∧ b' = b then some v else gridAt g a' b' := by
  have hal : a < g.length := by rw [hg.1]; exact ha.1
  have hrl : g[a].length = cols := hg.2 _ (List.getElem_mem hal)
  have h1 : pyGet g r = .ok g[a] := by
    unfold pyGet
    rw [hg.1, pyIndex_iff.2 ha]
    simp only [List.getElem?_eq_getElem hal]
  have h2 : pySet g[a] c v = .ok (g[a].set b v) := by
    unfold pySet
    rw [hrl, pyIndex_iff.2 hb]
  have h3 : pySet g r (g[a].set b v) = .ok (g.set a (g[a].set b v)) := by
    unfold pySet
    rw [hg.1, pyIndex_iff.2 ha]
  refine ⟨g.set a (g[a].set b v), ?_, ⟨by simp [hg.1], ?_⟩, ?_⟩
  · unfold assignCell
    rw [h1]; simp only [h2]; exact h3
  · intro x hx
    rcases List.mem_or_eq_of_mem_set hx with h | rfl
    · exact hg.2 x h
    · simp [hrl]
  · intro a' b'
    unfold gridAt
    by_cases e : a' = a
    · subst e
      rw [List.getElem?_set_self hal, List.getElem?_eq_getElem hal]
      simp only [Option.bind_some, true_and]
      by_cases e' : b' = b
      · subst e'
        rw [List.getElem?_set_self (by rw [hrl]; exact hb.1), if_pos rfl]
      · rw [List.getElem?_set_ne (Ne.symm e'), if_neg e']
    · rw [List.getElem?_set_ne (Ne.symm e), if_neg (fun h => e h.1)]

theorem assignCell_error {rows cols : Nat} {g : List (List Nat)} (hg : Shaped rows cols g) {r c : Int} {v : Nat}
    (h : ¬ ((∃ a, Addresses rows r a) ∧ ∃ b, Addresses cols c b)) : assignCell g r c v = .error .indexError := by
  unfold assignCell
  by_cases hr : ∃ a, Addresses rows r a
  · obtain ⟨a, ha⟩ := hr
    have hal : a < g.length := by rw [hg.1]; exact ha.1
    have h1 : pyGet g r = .ok g[a] := by
      unfold pyGet
      rw [hg.1, pyIndex_iff.2 ha]
      simp only [List.getElem?_eq_getElem hal]
    have hrl : g[a].length = cols := hg.2 _ (List.getElem_mem hal)
    rw [h1]
    have h2 : pySet g[a] c v = .error .indexError := by
      unfold pySet
      rw [hrl]
      cases hp : pyIndex cols c with
      | none => rfl
      | some b => exact absurd ⟨⟨a, ha⟩, b, pyIndex_iff.1 hp⟩ h
    simp only [h2]
  · have h1 : pyGet g r = .error .indexError := by
      unfold pyGet
      rw [hg.1]
      cases hp : pyIndex rows r with
      | none => rfl
      | some a => exact absurd ⟨a, pyIndex_iff.1 hp⟩ hr
    rw [h1]

/-- `(a, b)` is the cell a write refers to. -/
def Hits (rows cols a b : Nat) (w : Int × Int × Nat) : Prop := Addresses rows w.1 a ∧ Addresses cols w.2.1 b

/-- The write lies on the grid. -/
def OnGrid (rows cols : Nat) (w : Int × Int × Nat) : Prop := (∃ a, Addresses rows w.1 a) ∧ ∃ b, Addresses cols w.2.1 b

theorem addresses_unique {n : Nat} {k : Int} {p q : Nat} (h : Addresses n k p) (h' : Addresses n k q) : p = q := by
  unfold Addresses at h h'
  omega

/-- The value after some writes, relative to the value before. -/
def After (rows cols : Nat) (ws : List (Int × Int × Nat)) (a b : Nat) (old new : Option Nat) : Prop :=
  (new = old ∧ ∀ w ∈ ws, ¬ Hits rows cols a b w) ∨
  ∃ before w after, ws = before ++ w :: after ∧ Hits rows cols a b w ∧ new = some w.2.2 ∧
    ∀ w' ∈ after, ¬ Hits rows cols a b w'

theorem After.append {rows cols : Nat} {ws ws' : List (Int × Int × Nat)} {a b : Nat} {x y z : Option Nat}
    (h : After rows cols ws a b x y) (h' : After rows cols ws' a b y z) : After rows cols (ws ++ ws') a b x z := by
  rcases h' with ⟨rfl, h2⟩ | ⟨bf, w, af, rfl, h3, h4, h5⟩
  · rcases h with ⟨rfl, h1⟩ | ⟨bf, w, af, rfl, h3, h4, h5⟩
    · refine Or.inl ⟨rfl, ?_⟩
      intro w hw
      rcases List.mem_append.1 hw with h | h
      · exact h1 w h
      · exact h2 w h
    · refine Or.inr ⟨bf, w, af ++ ws', by simp, h3, h4, ?_⟩
      intro w' hw
      rcases List.mem_append.1 hw with h | h
      · exact h5 w' h
      · exact h2 w' h
  · exact Or.inr ⟨ws ++ bf, w, af, by simp, h3, h4, h5⟩

/-- One loop. -/
def shiftWrites (row col : Int) (ws : List (Int × Int × Nat)) : List (Int × Int × Nat) :=
  ws.map (fun w => (row + w.1, col + w.2.1, w.2.2))

theorem putCells_ok {rows cols : Nat} {row col : Int} (ws : List (Int × Int × Nat)) {g : List (List Nat)}
    (hg : Shaped rows cols g) (hw : ∀ w ∈ shiftWrites row col ws, OnGrid rows cols w) :
    ∃ g', ws.foldlM (putCell row col) g = .ok g' ∧ Shaped rows cols g' ∧
      ∀ a b, After rows cols (shiftWrites row col ws) a b (gridAt g a b) (gridAt g' a b) := by
  induction ws generalizing g with
  | nil => exact ⟨g, rfl, hg, fun a b => Or.inl ⟨rfl, by simp [shiftWrites]⟩⟩
  | cons w ws ih =>
    obtain ⟨⟨a0, ha0⟩, b0, hb0⟩ := hw (row + w.1, col + w.2.1, w.2.2) (by simp [shiftWrites])
    obtain ⟨g1, h1, h2, h3⟩ := assignCell_ok hg (v := w.2.2) ha0 hb0
    obtain ⟨g2, h4, h5, h6⟩ := ih h2 (fun w' hw' => hw w' (by
      simp only [shiftWrites, List.map_cons]; exact List.mem_cons_of_mem _ hw'))
    refine ⟨g2, ?_, h5, ?_⟩
    · rw [List.foldlM_cons]
      show (assignCell g (row + w.1) (col + w.2.1) w.2.2 >>= _) = _
      rw [h1]; exact h4
    · intro a b
      have : shiftWrites row col (w :: ws) = [(row + w.1, col + w.2.1, w.2.2)] ++ shiftWrites row col ws := rfl
      rw [this]
      refine After.append ?_ (h6 a b)
      rw [h3]
      by_cases hab : a = a0 ∧ b = b0
      · obtain ⟨rfl, rfl⟩ := hab
        rw [if_pos ⟨rfl, rfl⟩]
        exact Or.inr ⟨[], _, [], rfl, ⟨ha0, hb0⟩, rfl, by simp⟩
      · rw [if_neg hab]
        refine Or.inl ⟨rfl, ?_⟩
        intro w' hw' hh
        rw [List.mem_singleton.1 hw'] at hh
        exact hab ⟨addresses_unique hh.1 ha0, addresses_unique hh.2 hb0⟩

theorem putCells_error {rows cols : Nat} {row col : Int} (ws : List (Int × Int × Nat)) {g : List (List Nat)}
    (hg : Shaped rows cols g) (hw : ∃ w ∈ shiftWrites row col ws, ¬ OnGrid rows cols w) :
    ws.foldlM (putCell row col) g = .error .indexError := by
  induction ws generalizing g with
  | nil => obtain ⟨w, h, _⟩ := hw; simp [shiftWrites] at h
  | cons w ws ih =>
    rw [List.foldlM_cons]
    by_cases h : OnGrid rows cols (row + w.1, col + w.2.1, w.2.2)
    · obtain ⟨⟨a0, ha0⟩, b0, hb0⟩ := h
      obtain ⟨g1, h1, h2, _⟩ := assignCell_ok hg (v := w.2.2) ha0 hb0
      show (assignCell g (row + w.1) (col + w.2.1) w.2.2 >>= _) = _
      rw [h1]
      apply ih h2
      obtain ⟨w', hw', hn⟩ := hw
      rcases List.mem_cons.1 hw' with rfl | hw'
      · exact absurd ⟨⟨a0, ha0⟩, b0, hb0⟩ hn
      · exact ⟨w', hw', hn⟩
    · show (assignCell g (row + w.1) (col + w.2.1) w.2.2 >>= _) = _
      rw [assignCell_error hg h]
      rfl

theorem assignments_eq : ∀ row col : Int, shiftWrites row col loopAssignments = loopWrites row col := by
  have h : loopAssignments = loopRows.zipIdx.flatMap (fun p => p.1.2.zipIdx.map (fun q => ((p.2 : Int), p.1.1 + q.2, q.1))) := by
    decide +kernel
  intro row col
  unfold shiftWrites loopWrites
  rw [h, List.map_flatMap]
  congr 1
  funext p
  rw [List.map_map]
  congr 1
  funext q
  simp [Int.add_assoc]

/-- All writes of the first `n` loops. -/
def allWrites (n : Nat) (rowL colL : List Int) : List (Int × Int × Nat) :=
  ((rowL.zip colL).take n).flatMap (fun p => loopWrites p.1 p.2)

theorem allWrites_succ {n : Nat} {rowL colL : List Int} (h1 : n < rowL.length) (h2 : n < colL.length) :
    allWrites (n + 1) rowL colL = allWrites n rowL colL ++ loopWrites rowL[n] colL[n] := by
  unfold allWrites
  rw [List.take_succ_eq_append_getElem (by simp; omega), List.flatMap_append]
  simp

theorem putLoops_ok {rows cols : Nat} {rowL colL : List Int} (n : Nat) {g : List (List Nat)} (hg : Shaped rows cols g)
    (h1 : n ≤ rowL.length) (h2 : n ≤ colL.length) (hw : ∀ w ∈ allWrites n rowL colL, OnGrid rows cols w) :
    ∃ g', (List.range n).foldlM (putLoop rowL colL) g = .ok g' ∧ Shaped rows cols g' ∧
      ∀ a b, After rows cols (allWrites n rowL colL) a b (gridAt g a b) (gridAt g' a b) := by
  induction n with
  | zero => exact ⟨g, rfl, hg, fun a b => Or.inl ⟨rfl, by simp [allWrites]⟩⟩
  | succ n ih =>
    rw [allWrites_succ (by omega) (by omega)] at hw
    obtain ⟨g1, a1, a2, a3⟩ := ih (by omega) (by omega) (fun w h => hw w (List.mem_append_left _ h))
    obtain ⟨g2, b1, b2, b3⟩ := putCells_ok (row := rowL[n]) (col := colL[n]) loopAssignments a2 (by
      rw [assignments_eq]; exact fun w h => hw w (List.mem_append_right _ h))
    refine ⟨g2, ?_, b2, ?_⟩
    · rw [List.range_succ, List.foldlM_append, a1]
      show ((List.foldlM (putLoop rowL colL) g1 [n])) = _
      rw [List.foldlM_cons]
      have : putLoop rowL colL g1 n = .ok g2 := by
        unfold putLoop
        rw [List.getElem?_eq_getElem (by omega), List.getElem?_eq_getElem (by omega)]
        exact b1
      rw [this]; rfl
    · intro a b
      rw [allWrites_succ (by omega) (by omega)]
      have := b3 a b
      rw [assignments_eq] at this
      exact (a3 a b).append this

theorem putLoops_error {rows cols : Nat} {rowL colL : List Int} (n : Nat) {g : List (List Nat)} (hg : Shaped rows cols g)
    (h : rowL.length < n ∨ colL.length < n ∨ ∃ w ∈ allWrites n rowL colL, ¬ OnGrid rows cols w) :
    (List.range n).foldlM (putLoop rowL colL) g = .error .indexError := by
  induction n with
  | zero =>
    rcases h with h | h | ⟨w, h, _⟩
    · omega
    · omega
    · simp [allWrites] at h
  | succ n ih =>
    rw [List.range_succ, List.foldlM_append]
    by_cases hp : rowL.length < n ∨ colL.length < n ∨ ∃ w ∈ allWrites n rowL colL, ¬ OnGrid rows cols w
    · rw [ih hp]; rfl
    · have hw : ∀ w ∈ allWrites n rowL colL, OnGrid rows cols w := fun w hw => Classical.byContradiction fun hn =>
        hp (Or.inr (Or.inr ⟨w, hw, hn⟩))
      have h1 : n ≤ rowL.length := by omega
      have h2 : n ≤ colL.length := by omega
      obtain ⟨g1, a1, a2, _⟩ := putLoops_ok n hg h1 h2 hw
      rw [a1]
      show ((List.foldlM (putLoop rowL colL) g1 [n])) = _
      rw [List.foldlM_cons]
      have : putLoop rowL colL g1 n = .error .indexError := by
        unfold putLoop
        cases e1 : rowL[n]? with
        | none => rfl
        | some row =>
          cases e2 : colL[n]? with
          | none => rfl
          | some col =>
            simp only
            obtain ⟨l1, rfl⟩ := List.getElem?_eq_some_iff.1 e1
            obtain ⟨l2, rfl⟩ := List.getElem?_eq_some_iff.1 e2
            apply putCells_error loopAssignments a2
            rw [assignments_eq]
            rcases h with h | h | ⟨w, hm, hn⟩
            · omega
            · omega
            · rw [allWrites_succ l1 l2] at hm
              rcases List.mem_append.1 hm with hm | hm
              · exact absurd (hw w hm) hn
              · exact ⟨w, hm, hn⟩
      rw [this]; rfl

theorem flatten_get {α : Type} {rows cols : Nat} {g : List (List α)} (hg : Shaped rows cols g) :
    g.flatten.length = rows * cols ∧ ∀ a b, a < rows → b < cols → g.flatten[a * cols + b]? = gridAt g a b := by
  obtain ⟨h1, h2⟩ := hg
  induction g generalizing rows with
  | nil =>
    have : rows = 0 := by simpa using h1.symm
    subst this
    exact ⟨by simp, fun a b ha => absurd ha (by omega)⟩
  | cons r g ih =>
    obtain ⟨m, rfl⟩ : ∃ m, rows = m + 1 := ⟨g.length, by simpa using h1.symm⟩
    obtain ⟨i1, i2⟩ := ih (rows := m) (by simpa using h1) (fun r' hr' => h2 r' (by simp [hr']))
    have hr : r.length = cols := h2 r (by simp)
    refine ⟨by simp only [List.flatten_cons, List.length_append, hr, i1]; rw [Nat.succ_mul]; omega, ?_⟩
    intro a b ha hb
    rw [List.flatten_cons]
    cases a with
    | zero =>
      rw [Nat.zero_mul, Nat.zero_add, List.getElem?_append_left (by omega)]
      rfl
    | succ a =>
      rw [Nat.succ_mul, List.getElem?_append_right (by omega), hr,
        show a * cols + cols + b - cols = a * cols + b by omega, i2 a b (by omega) hb]
      rfl

end Verif
