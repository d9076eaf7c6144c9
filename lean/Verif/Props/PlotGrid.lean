import Verif.Proofs.PlotGrid
import Verif.Props.Copy
/-! # Properties C126 (the pictures of activities) and C127 (the pictures of networks) -/

namespace Verif
open Verif.Spec Verif.MG

section
variable {V X : Type}

/-! ## C126

Full claim: `plot_activities` shows the chosen state in the given shape, for every shape that `_reshape_for_animation` takes.  It is
false for a shape with one number (`C126_one_number`). -/

/-- C126.  With a shape of two numbers, the image has that shape, and the value in row `i` and column `j` is the activity of node
`i * cols + j` in the state number `slice` (from the end if negative). -/
theorem C126_state_partial (zero : V) (states : List (Dict Nat V)) (rows cols : Nat) (hpos : 0 < rows * cols)
    (hs : ∀ d ∈ states, NodeValues d (rows * cols)) (slice : Int) (h1 : -(states.length : Int) ≤ slice)
    (h2 : slice < states.length) (ann : Option (List (List X))) (grid : Bool) :
    ∃ pic d, plotActivities zero (fun a b => decide (a ≤ b)) (.states (states.map some)) (some [rows, cols]) slice ann grid = .ok pic ∧
      states[(slice % states.length).toNat]? = some d ∧ IsImage pic.image rows cols ∧
      ∀ i j, i < rows → j < cols → pixel pic.image i j = d.get? (i * cols + j) := by
  have hne : ∀ d ∈ states, d ≠ [] := by
    rintro d hd rfl
    have := (hs _ hd).length_eq
    simp [Dict.keys] at this
    omega
  have hlen : 0 < states.length := by omega
  have hrows : (Plottable.states (states.map some) : Plottable Nat V).toRows (fun a b => decide (a ≤ b)) =
      .ok (states.map (activityRow (fun a b => decide (a ≤ b)))) := by
    unfold Plottable.toRows
    rw [if_neg (by show (states.map some).length ≠ 0; rw [List.length_map]; omega)]
    simp only
    rw [activitiesOverTime_map]
    · simp [Function.comp_def]
    · intro s hs'
      obtain ⟨d, hd, rfl⟩ := List.mem_map.1 hs'
      exact ⟨d, rfl, hne d hd⟩
  have hresh : reshapeForAnimation zero (states.map (activityRow (fun a b => decide (a ≤ b)))) [rows, cols] =
      .ok ((states.map (activityRow (fun a b => decide (a ≤ b)))).map (animationGrid rows cols)) := by
    simp only [reshapeForAnimation]
    rw [if_pos]
    rw [List.all_eq_true]
    intro row hr
    obtain ⟨d, hd, rfl⟩ := List.mem_map.1 hr
    exact decide_eq_true (activityRow_values d _ (hs d hd)).1
  have hp : (slice % states.length).toNat < states.length := by
    have := Int.emod_nonneg slice (b := states.length) (by omega)
    have := Int.emod_lt_of_pos slice (b := states.length) (by omega)
    omega
  have hframe : frameOf ((states.map (activityRow (fun a b => decide (a ≤ b)))).map (animationGrid rows cols)) [rows, cols] slice =
      .ok (animationGrid rows cols (activityRow (fun a b => decide (a ≤ b)) states[(slice % states.length).toNat])) := by
    unfold frameOf pyGet
    simp only [List.length_map]
    rw [pyIndex_emod h1 h2]
    simp only [List.getElem?_map, List.getElem?_eq_getElem hp, Option.map_some]
  have hd := hs _ (List.getElem_mem hp)
  obtain ⟨v1, v2⟩ := activityRow_values _ _ hd
  obtain ⟨g1, g2⟩ := animationGrid_image rows cols _ v1
  generalize himg : animationGrid rows cols (activityRow (fun a b => decide (a ≤ b)) states[(slice % states.length).toNat]) = image
    at hframe g1 g2
  have hrpos : 0 < rows := Nat.pos_of_mul_pos_right hpos
  obtain ⟨t, ht⟩ : ∃ t, gridTicks image grid = .ok t := by
    unfold gridTicks
    cases grid with
    | false => exact ⟨_, rfl⟩
    | true =>
      cases image with
      | nil => have := g1.1; simp at this; omega
      | cons => exact ⟨_, rfl⟩
  refine ⟨⟨image, annotationTexts ann, t⟩, _, ?_, List.getElem?_eq_getElem hp, g1, ?_⟩
  · unfold plotActivities
    rw [hrows]
    simp only
    rw [hresh]
    simp only
    rw [hframe]
    simp only [drawGrid, ht]
  · intro i j hi hj
    rw [g2 i j hj hi, v2, if_pos]
    have : (i + 1) * cols ≤ rows * cols := Nat.mul_le_mul_right cols hi
    rw [Nat.add_mul, Nat.one_mul] at this
    omega

/-- C126.  Without a shape, all states are shown: the value in row `t` and column `i` is the activity of node `i` in state `t`. -/
theorem C126_all_states (zero : V) (states : List (Dict Nat V)) (n : Nat) (hn : 0 < n) (hne : states ≠ [])
    (hs : ∀ d ∈ states, NodeValues d n) (slice : Int) (ann : Option (List (List X))) (grid : Bool) :
    ∃ pic, plotActivities zero (fun a b => decide (a ≤ b)) (.states (states.map some)) none slice ann grid = .ok pic ∧
      IsImage pic.image states.length n ∧
      ∀ (t : Nat) (d : Dict Nat V), states[t]? = some d → ∀ i, i < n → pixel pic.image t i = d.get? i := by
  have hne' : ∀ d ∈ states, d ≠ [] := by
    rintro d hd rfl
    have := (hs _ hd).length_eq
    simp [Dict.keys] at this
    omega
  have hlen : 0 < states.length := List.length_pos_iff.2 hne
  have hrows : (Plottable.states (states.map some) : Plottable Nat V).toRows (fun a b => decide (a ≤ b)) =
      .ok (states.map (activityRow (fun a b => decide (a ≤ b)))) := by
    unfold Plottable.toRows
    rw [if_neg (by show (states.map some).length ≠ 0; rw [List.length_map]; omega)]
    simp only
    rw [activitiesOverTime_map]
    · simp [Function.comp_def]
    · intro s hs'
      obtain ⟨d, hd, rfl⟩ := List.mem_map.1 hs'
      exact ⟨d, rfl, hne' d hd⟩
  obtain ⟨tk, ht⟩ : ∃ t, gridTicks (states.map (activityRow (fun a b => decide (a ≤ b)))) grid = .ok t := by
    unfold gridTicks
    cases grid with
    | false => exact ⟨_, rfl⟩
    | true =>
      cases states with
      | nil => exact absurd rfl hne
      | cons => exact ⟨_, rfl⟩
  refine ⟨⟨states.map (activityRow (fun a b => decide (a ≤ b))), annotationTexts ann, tk⟩, ?_, ⟨by simp, ?_⟩, ?_⟩
  · unfold plotActivities
    rw [hrows]
    simp only [drawGrid, ht]
  · intro row hr
    obtain ⟨d, hd, rfl⟩ := List.mem_map.1 hr
    exact (activityRow_values d _ (hs d hd)).1
  · intro t d ht i hi
    simp only [pixel, List.getElem?_map, ht, Option.map_some]
    rw [(activityRow_values d _ (hs d (List.mem_of_getElem? ht))).2, if_pos hi]

/-- C126, negation: a shape with one number always raises, although `_reshape_for_animation` takes it. -/
theorem C126_one_number {L : Type} [DecidableEq L] (zero : V) (le : L → L → Bool) (p : Plottable L V) (w : Nat) (slice : Int)
    (ann : Option (List (List X))) (grid : Bool) :
    ∃ e, plotActivities zero le p (some [w]) slice ann grid = .error e := by
  unfold plotActivities
  cases p.toRows le with
  | error e => exact ⟨e, rfl⟩
  | ok rows =>
    simp only
    cases reshapeForAnimation zero rows [w] with
    | error e => exact ⟨e, rfl⟩
    | ok frames => exact ⟨.indexError, rfl⟩

/-- C126.  When `plot_activities` raises with a shape of two numbers: nothing to show, a row of another length, a `slice` that is out
of range, or a grid without rows. -/
theorem C126_raises {L : Type} [DecidableEq L] (zero : V) (le : L → L → Bool) (p : Plottable L V) (rows cols : Nat) (slice : Int)
    (ann : Option (List (List X))) (grid : Bool) (l : List (List V)) (hl : p.toRows le = .ok l) :
    (∃ e, plotActivities zero le p (some [rows, cols]) slice ann grid = .error e) ↔
      (∃ row ∈ l, row.length ≠ rows * cols) ∨ slice < -(l.length : Int) ∨ (l.length : Int) ≤ slice ∨ (grid = true ∧ rows = 0) := by
  unfold plotActivities
  rw [hl]
  simp only [reshapeForAnimation]
  by_cases hall : l.all (fun row => decide (row.length = rows * cols)) = true
  · rw [if_pos hall]
    simp only [frameOf]
    have hno : ¬ ∃ row ∈ l, row.length ≠ rows * cols := by
      rintro ⟨row, hr, hne⟩
      rw [List.all_eq_true] at hall
      exact hne (of_decide_eq_true (hall row hr))
    by_cases hr : slice < -(l.length : Int) ∨ (l.length : Int) ≤ slice
    · have : pyGet (l.map (animationGrid rows cols)) slice = .error .indexError := by
        unfold pyGet
        rw [List.length_map, pyIndex_eq_none_iff.2 hr]
      rw [this]
      constructor
      · intro _
        rcases hr with h | h
        · exact Or.inr (Or.inl h)
        · exact Or.inr (Or.inr (Or.inl h))
      · intro _; exact ⟨_, rfl⟩
    · have hr1 : -(l.length : Int) ≤ slice := by omega
      have hr2 : slice < l.length := by omega
      have hp : (slice % l.length).toNat < l.length := by
        have := Int.emod_nonneg slice (b := l.length) (by omega)
        have := Int.emod_lt_of_pos slice (b := l.length) (by omega)
        omega
      have : pyGet (l.map (animationGrid rows cols)) slice = .ok (animationGrid rows cols l[(slice % l.length).toNat]) := by
        unfold pyGet
        rw [List.length_map, pyIndex_emod hr1 hr2]
        simp only [List.getElem?_map, List.getElem?_eq_getElem hp, Option.map_some]
      rw [this]
      simp only [drawGrid, gridTicks]
      cases grid with
      | false =>
        simp only [Bool.false_eq_true, false_and, or_false, if_false]
        constructor
        · rintro ⟨e, h⟩; cases h
        · rintro (h | h | h)
          · exact absurd h hno
          · omega
          · omega
      | true =>
        simp only [if_true, true_and]
        cases rows with
        | zero => simp [animationGrid]
        | succ r =>
          have : animationGrid (r + 1) cols l[(slice % l.length).toNat] ≠ [] := by
            simp [animationGrid]
          obtain ⟨a, b, hab⟩ := List.exists_cons_of_ne_nil this
          rw [hab]
          simp only
          constructor
          · rintro ⟨e, h⟩; cases h
          · rintro (h | h | h | h)
            · exact absurd h hno
            · omega
            · omega
            · omega
  · rw [if_neg hall]
    constructor
    · intro _
      left
      rw [List.all_eq_true] at hall
      false_or_by_contra
      rename_i hcon
      apply hall
      intro row hr
      apply decide_eq_true
      false_or_by_contra
      exact hcon ⟨row, hr, by assumption⟩
    · intro _; exact ⟨_, rfl⟩

/-- C126.  An empty argument raises the exception of `plot_activities`, with every shape. -/
theorem C126_nothing {L : Type} [DecidableEq L] (zero : V) (le : L → L → Bool) (p : Plottable L V) (hp : p.length = 0)
    (shape : Option (List Nat)) (slice : Int) (ann : Option (List (List X))) (grid : Bool) :
    plotActivities zero le p shape slice ann grid = .error (.exception "there are no activities") ∧
      animateActivities zero le p shape = .error (.exception "there are no activities") := by
  unfold plotActivities animateActivities Plottable.toRows
  rw [if_pos hp]
  exact ⟨rfl, rfl⟩

/-- C126.  Every annotation is written once, in the middle of its cell: the one in row `i` and column `j` at the point `(j, i)`. -/
theorem C126_annotations (image : List (List V)) (ann : List (List X)) (grid : Bool) (pic : Picture V X)
    (h : drawGrid image (some ann) grid = .ok pic) :
    (∀ i j s, (j, i, s) ∈ pic.texts ↔ pixel ann i j = some s) ∧ (pic.texts.map (fun t => (t.1, t.2.1))).Nodup := by
  unfold drawGrid at h
  split at h
  · cases h
  · cases h
    exact ⟨fun i j s => mem_annotationTexts ann j i s, nodup_annotationTexts ann⟩

/-- C126.  With `show_grid` the ticks are, in increasing order, exactly the borders of the cells of the image. -/
theorem C126_grid (image : List (List V)) (rows cols : Nat) (hr : 0 < rows) (hc : 0 < cols) (hi : IsImage image rows cols)
    (ann : Option (List (List X))) :
    ∃ pic xt yt, drawGrid image ann true = .ok pic ∧ pic.ticks = some (xt, yt) ∧ pic.image = image ∧
      (∀ x, x ∈ xt ↔ CellBorder cols x) ∧ (∀ y, y ∈ yt ↔ CellBorder rows y) ∧
      xt.Pairwise (· < ·) ∧ yt.Pairwise (· < ·) := by
  obtain ⟨h1, h2⟩ := hi
  cases image with
  | nil => simp at h1; omega
  | cons row l =>
    have hrow := h2 row (by simp)
    refine ⟨⟨row :: l, annotationTexts ann, some (npArange (-1 / 2) cols, npArange (-1 / 2) rows)⟩, npArange (-1 / 2) cols, npArange (-1 / 2) rows, ?_, rfl, rfl, mem_ticks cols hc, mem_ticks rows hr,
      ticks_sorted cols, ticks_sorted rows⟩
    simp only [drawGrid, gridTicks, if_true]
    rw [hrow, h1]

/-- C126.  The lines of the grid of an animation are exactly the borders of the cells, each along the whole picture. -/
theorem C126_lines (frames : List (List (List V))) (frame : List (List V)) (h0 : frames[0]? = some frame) (rows cols : Nat)
    (hr : 0 < rows) (hc : 0 < cols) (hi : IsImage frame rows cols) :
    ∃ ls, gridLines frames = .ok ls ∧ ∀ s, s ∈ ls ↔ BorderLine rows cols s := by
  cases frames with
  | nil => cases h0
  | cons f fs =>
    obtain rfl : f = frame := by simpa using h0
    obtain ⟨h1, h2⟩ := hi
    cases f with
    | nil => simp at h1; omega
    | cons row l =>
      have hrow := h2 row (by simp)
      refine ⟨(npArange (-1 / 2) cols).map (fun x => ((x, -1 / 2), (x, (rows : Rat) - 1 / 2))) ++
        (npArange (-1 / 2) rows).map (fun y => ((-1 / 2, y), ((cols : Rat) - 1 / 2, y))), ?_, ?_⟩
      · simp only [gridLines]
        rw [hrow, h1, ticks_getLast, ticks_getLast]
      · intro s
        rw [List.mem_append, List.mem_map, List.mem_map]
        constructor
        · rintro (⟨x, hx, rfl⟩ | ⟨y, hy, rfl⟩)
          · exact Or.inl ⟨(mem_ticks cols hc x).1 hx, rfl⟩
          · exact Or.inr ⟨(mem_ticks rows hr y).1 hy, rfl⟩
        · rintro (⟨hx, he⟩ | ⟨hy, he⟩)
          · exact Or.inl ⟨s.1.1, (mem_ticks cols hc _).2 hx, he.symm⟩
          · exact Or.inr ⟨s.1.2, (mem_ticks rows hr _).2 hy, he.symm⟩

/-- C126.  `animate_activities` of states or rows of numbers raises without a shape, which is the default: nothing to show raises the
exception, states that are all without activities or an empty first row an `IndexError`, everything else a `TypeError`. -/
theorem C126_animate_needs_shape {L : Type} [DecidableEq L] (zero : V) (le : L → L → Bool) (p : Plottable L V) :
    ∃ e, animateActivities zero le p none = .error e ∧
      (p.length = 0 → e = .exception "there are no activities") ∧
      (p.length ≠ 0 → ∀ l, p = .states l → (∀ s ∈ l, s = none ∨ s = some []) → e = .indexError) ∧
      (∀ rows, p = .rows ([] :: rows) → e = .indexError) ∧
      (∀ v row rows, p = .rows ((v :: row) :: rows) → e = .typeError) := by
  unfold animateActivities
  cases hp : p.toRows le with
  | error e =>
    unfold Plottable.toRows at hp
    by_cases h0 : p.length = 0
    · rw [if_pos h0] at hp
      cases hp
      refine ⟨_, rfl, fun _ => rfl, fun h => absurd h0 h, ?_, ?_⟩
      · rintro rows rfl; exact absurd h0 (by simp [Plottable.length])
      · rintro v row rows rfl; exact absurd h0 (by simp [Plottable.length])
    · rw [if_neg h0] at hp
      cases p <;> cases hp
  | ok rows =>
    unfold Plottable.toRows at hp
    by_cases h0 : p.length = 0
    · rw [if_pos h0] at hp; cases hp
    rw [if_neg h0] at hp
    have hnone : ∀ l, p = .states l → (∀ s ∈ l, s = none ∨ s = some []) → rows = [] := by
      rintro l rfl hl
      cases Except.ok.inj hp
      unfold activitiesOverTime
      rw [List.filterMap_eq_nil_iff]
      intro s hs
      rcases hl s hs with rfl | rfl <;> rfl
    cases rows with
    | nil =>
      refine ⟨_, rfl, fun h => absurd h h0, fun _ _ _ _ => rfl, ?_, ?_⟩
      · rintro rows rfl; cases Except.ok.inj hp
      · rintro v row rows rfl; cases Except.ok.inj hp
    | cons row l =>
      cases row with
      | nil =>
        refine ⟨_, rfl, fun h => absurd h h0, fun _ l' h1 h2 => ?_, fun _ _ => rfl, ?_⟩
        · have := hnone l' h1 h2; cases this
        · rintro v row rows rfl; cases Except.ok.inj hp
      | cons v row =>
        refine ⟨_, rfl, fun h => absurd h h0, fun _ l' h1 h2 => ?_, ?_, fun _ _ _ _ => rfl⟩
        · have := hnone l' h1 h2; cases this
        · rintro rows rfl; cases Except.ok.inj hp

/-- C126.  `plot_grid_multiple` draws one figure per automaton: if all titles and images can be had, figure `k` has the `k`-th title
and the `k`-th image. -/
theorem C126_multiple (cas : List (List (List V))) (shape : Option (List Nat)) (slice : Int) (titles : List X)
    (h : cas.length ≤ titles.length) (images : List (List (List V))) (hl : images.length = cas.length)
    (hi : ∀ (k : Nat) (ca image : List (List V)), cas[k]? = some ca → images[k]? = some image →
      figureImage ca shape slice = .ok image) :
    plotGridMultiple cas shape slice (some titles) = .ok ((titles.map some).zip images) ∧
      plotGridMultiple cas shape slice (none : Option (List X)) = .ok (images.map (fun image => (none, image))) := by
  unfold plotGridMultiple
  have key : ∀ (cas : List (List (List V))) (images : List (List (List V))) (k : Nat), k + cas.length ≤ titles.length →
      images.length = cas.length →
      (∀ (k : Nat) (ca image : List (List V)), cas[k]? = some ca → images[k]? = some image →
        figureImage ca shape slice = .ok image) →
      (cas.zipIdx k).mapM (figureOf shape slice (some titles)) = .ok (((titles.drop k).map some).zip images) ∧
      (cas.zipIdx k).mapM (figureOf shape slice (none : Option (List X))) = .ok (images.map (fun image => (none, image))) := by
    intro cas
    induction cas with
    | nil =>
      intro images k _ hl _
      obtain rfl : images = [] := List.eq_nil_of_length_eq_zero hl
      exact ⟨by rw [List.zip_nil_right]; rfl, rfl⟩
    | cons c cas ih =>
      intro images k hk hl hi
      cases images with
      | nil => simp at hl
      | cons im images =>
        obtain ⟨i1, i2⟩ := ih images (k + 1) (by simp at hk; omega) (by simpa using hl)
          (fun j ca image h1 h2 => hi (j + 1) ca image (by simpa using h1) (by simpa using h2))
        have h0 := hi 0 c im rfl rfl
        rw [List.zipIdx_cons, List.mapM_cons, List.mapM_cons, i1, i2]
        refine ⟨?_, ?_⟩
        · simp only [figureOf]
          rw [pyGet_natCast titles (by simp at hk; omega), h0, List.drop_eq_getElem_cons (i := k) (by simp at hk; omega)]
          rfl
        · simp only [figureOf]
          rw [h0]
          rfl
  simpa using key cas images 0 (by simpa using h) hl hi

/-- C126.  Fewer titles than automata raise. -/
theorem C126_few_titles (cas : List (List (List V))) (shape : Option (List Nat)) (slice : Int) (titles : List X)
    (h : titles.length < cas.length) : ∃ e, plotGridMultiple cas shape slice (some titles) = .error e := by
  unfold plotGridMultiple
  have key : ∀ (cas : List (List (List V))) (k : Nat), titles.length < k + cas.length → 0 < cas.length →
      ∃ e, (cas.zipIdx k).mapM (figureOf shape slice (some titles)) = .error e := by
    intro cas
    induction cas with
    | nil => intro k _ h; simp at h
    | cons c cas ih =>
      intro k hk _
      rw [List.zipIdx_cons, List.mapM_cons]
      cases hf : figureOf shape slice (some titles) (c, k) with
      | error e => exact ⟨e, rfl⟩
      | ok v =>
        cases cas with
        | nil =>
          simp only [figureOf] at hf
          have : pyGet titles (k : Int) = .error .indexError := by
            unfold pyGet
            rw [pyIndex_eq_none_iff.2 (by right; simp at hk; omega)]
          rw [this] at hf
          cases hf
        | cons c' cas =>
          obtain ⟨e, he⟩ := ih (k + 1) (by simp at hk ⊢; omega) (by simp)
          exact ⟨e, by rw [he]; rfl⟩
  exact key cas 0 (by simpa using h) (by omega)

/-- C126.  `animate_plot1D` shows the rows in turn above the same `x`, and starts with the first. -/
theorem C126_plot1D {L : Type} [DecidableEq L] (le : L → L → Bool) (x : List X) (rows : List (List V)) (hne : rows ≠ []) :
    ∃ first frames, animatePlot1D le x (.rows rows : Plottable L V) = .ok (first, frames) ∧ frames.length = rows.length ∧
      frames[0]? = some first ∧ ∀ (k : Nat) (row : List V), rows[k]? = some row → frames[k]? = some (x, row) := by
  cases rows with
  | nil => exact absurd rfl hne
  | cons r rs =>
    refine ⟨_, _, rfl, by simp, rfl, ?_⟩
    intro k row hk
    rw [List.getElem?_map, hk]; rfl

/-- C126.  The same for the states of a trajectory: the frames are the rows of the states that have activities. -/
theorem C126_plot1D_states {L : Type} [DecidableEq L] (le : L → L → Bool) (x : List X) (l : List (Option (Dict L V)))
    (hne : activitiesOverTime le l ≠ []) :
    animatePlot1D le x (.states l) = animatePlot1D le x (.rows (activitiesOverTime le l) : Plottable L V) := by
  unfold animatePlot1D
  have hl : l ≠ [] := by rintro rfl; exact hne rfl
  rw [if_neg (by simpa [Plottable.length] using hl), if_neg (by simpa [Plottable.length] using hne)]

/-- C126.  `animate_plot1D` raises an `IndexError` if there is nothing to show. -/
theorem C126_plot1D_nothing {L : Type} [DecidableEq L] (le : L → L → Bool) (x : List X) :
    animatePlot1D le x (.rows [] : Plottable L V) = .error .indexError ∧
      ∀ l : List (Option (Dict L V)), activitiesOverTime le l = [] → animatePlot1D le x (.states l) = .error .indexError := by
  refine ⟨rfl, fun l hl => ?_⟩
  unfold animatePlot1D
  by_cases h : (Plottable.states l).length = 0
  · rw [if_pos h]
  · rw [if_neg h]
    simp only
    rw [hl]

/-- Two states with activities and one without: two frames. -/
example : activitiesOverTime (fun a b : Nat => a ≤ b) [some [(1, 'b'), (0, 'a')], none, some [(0, 'c'), (1, 'd')]] = [['a', 'b'], ['c', 'd']] := by
  simp [activitiesOverTime, activityRow, List.mergeSort, List.merge, Dict.get?, List.MergeSort.Internal.splitInTwo]

/-- A trajectory whose states have no activities. -/
example : activitiesOverTime (fun a b : Nat => a ≤ b) [(none : Option (Dict Nat Char)), none] = [] := by
  simp [activitiesOverTime]

end

/-! ## C127 -/

section
variable {L A P C : Type} [DecidableEq L]

/-- What NetworkX holds after the nodes and edges of a network were added, with attributes `na` and `ea`. -/
theorem drawn_graph (ops : List (Net.Op L A)) (na : L × Attr A → Attr A) (ea : Attr A → Attr A)
    (hna : ∀ p : L × Attr A, (Dict.keys p.2).Nodup → (Dict.keys (na p)).Nodup) :
    let n := Net.run (Net.empty : Net L A) ops
    let G := n.edges.foldl (fun G e => G.addEdge e.1 e.2.1 (ea e.2.2))
      (n.nodes.foldl (fun G p => G.addNode p.1 (na (p.1, p.2.attrs))) (NX.empty : NX L A))
    G.nodes = n.nodes.map (fun p => (p.1, na (p.1, p.2.attrs))) ∧
      ∀ i j, between (toEdges G.edgesData) i j = (between (MG.run MG.empty ops).edges i j).map ea := by
  obtain ⟨h, hv⟩ := run_empty ops
  have ha := attrNodup_run ops
  intro n G
  generalize hg : MG.run MG.empty ops = g at h hv ha
  have hn : n = ofMG g := h
  have hnodes : n.nodes.foldl (fun G p => G.addNode p.1 (na (p.1, p.2.attrs))) (NX.empty : NX L A) =
      ⟨g.nodes.map (fun p => (p.1, na p)), g.nodes.map (fun p => (p.1, []))⟩ := by
    rw [hn]
    have := NX.foldl_addNode (g.nodes.map (fun p => (p.1, na p))) (NX.empty : NX L A)
      (by simpa [NX.empty, Dict.keys, Function.comp_def] using (show (g.nodes.map Prod.fst).Nodup from hv.nodup))
      (by
        intro p hp
        obtain ⟨q, hq, rfl⟩ := List.mem_map.1 hp
        exact hna q (ha q hq)) rfl
    simp only [ofMG, List.foldl_map, nodeOf] at this ⊢
    rw [this]; simp [NX.empty, Function.comp_def]
  have hok : (⟨g.nodes.map (fun p => (p.1, na p)), g.nodes.map (fun p => (p.1, []))⟩ : NX L A).Ok := by
    refine ⟨by simp [Dict.keys, Function.comp_def], by simpa [Dict.keys, Function.comp_def] using
      (show (g.nodes.map Prod.fst).Nodup from hv.nodup), ?_⟩
    intro u d hd
    have := Dict.mem_of_get? hd
    simp only [List.mem_map, Prod.mk.injEq] at this
    obtain ⟨_, _, _, rfl⟩ := this
    exact List.nodup_nil
  have hkeys : (⟨g.nodes.map (fun p => (p.1, na p)), g.nodes.map (fun p => (p.1, []))⟩ : NX L A).nodes.keys = g.labels := by
    simp [Dict.keys, MG.labels, Function.comp_def]
  have hmem : ∀ e ∈ n.edges.map (fun e => (e.1, e.2.1, ea e.2.2)), e.1 ∈
      (⟨g.nodes.map (fun p => (p.1, na p)), g.nodes.map (fun p => (p.1, []))⟩ : NX L A).nodes.keys ∧ e.2.1 ∈
      (⟨g.nodes.map (fun p => (p.1, na p)), g.nodes.map (fun p => (p.1, []))⟩ : NX L A).nodes.keys := by
    intro e he
    rw [hkeys]
    obtain ⟨e0, he0, rfl⟩ := List.mem_map.1 he
    rw [hn] at he0
    obtain ⟨e', he', rfl⟩ := List.mem_map.1 ((edges_perm hv).mem_iff.1 he0)
    exact hv.closed e' he'
  obtain ⟨b1, b2, b3⟩ := NX.foldl_addEdge (es := n.edges.map (fun e => (e.1, e.2.1, ea e.2.2))) hok hmem
  have hG : G = (n.edges.map (fun e => (e.1, e.2.1, ea e.2.2))).foldl (fun G e => G.addEdge e.1 e.2.1 e.2.2)
      ⟨g.nodes.map (fun p => (p.1, na p)), g.nodes.map (fun p => (p.1, []))⟩ := by
    rw [List.foldl_map]
    show n.edges.foldl _ (n.nodes.foldl _ _) = _
    rw [hnodes]
  rw [← hG] at b1 b2 b3
  refine ⟨?_, ?_⟩
  · rw [b1, hn]; simp [ofMG, nodeOf, Function.comp_def]
  · intro i j
    rw [between_edgesData b2, b3]
    have e0 : NX.parallel (⟨g.nodes.map (fun p => (p.1, na p)), g.nodes.map (fun p => (p.1, []))⟩ : NX L A) i j = [] := by
      unfold NX.parallel
      cases hd : Dict.get? (g.nodes.map (fun p => (p.1, ([] : Dict L (List (Attr A)))))) i with
      | none => rfl
      | some d =>
        have := Dict.mem_of_get? hd
        simp only [List.mem_map, Prod.mk.injEq] at this
        obtain ⟨_, _, _, rfl⟩ := this
        rfl
    rw [e0, List.nil_append, ← between_edges_ofMG hv, ← hn]
    simp [between, toEdges, List.filter_map, Function.comp_def]

/-- The graph has the nodes of the network, in their order, and between any two nodes as many edges. -/
def DrawsNetwork (G : NX L A) (ops : List (Net.Op L A)) : Prop :=
  G.nodes.keys = (Net.run (Net.empty : Net L A) ops).labels ∧
  ∀ i j, (G.edgesData.filter (fun e => decide (e.1 = i ∧ e.2.1 = j))).length = (between (MG.run MG.empty ops).edges i j).length

theorem between_length (es : List (L × L × Attr A)) (i j : L) :
    (between (toEdges es) i j).length = (es.filter (fun e => decide (e.1 = i ∧ e.2.1 = j))).length := by
  simp only [between, toEdges, List.length_map, List.filter_map, Function.comp_def]
  congr 2
  funext e
  simp

theorem draws_of (ops : List (Net.Op L A)) (na : L × Attr A → Attr A) (ea : Attr A → Attr A)
    (hna : ∀ p : L × Attr A, (Dict.keys p.2).Nodup → (Dict.keys (na p)).Nodup) :
    DrawsNetwork ((Net.run (Net.empty : Net L A) ops).edges.foldl (fun G e => G.addEdge e.1 e.2.1 (ea e.2.2))
      ((Net.run (Net.empty : Net L A) ops).nodes.foldl (fun G p => G.addNode p.1 (na (p.1, p.2.attrs))) (NX.empty : NX L A))) ops := by
  obtain ⟨h1, h2⟩ := drawn_graph ops na ea hna
  refine ⟨?_, fun i j => ?_⟩
  · rw [h1]
    simp [Dict.keys, Net.labels, Function.comp_def]
  · rw [← between_length, h2, List.length_map]

/-- C127.  `plot_network` of a network that was built by any operations draws its nodes and, with their number, its edges; it takes
the layouts `shell` and `spring` and a dict of positions, and nothing else. -/
theorem C127_plot (ops : List (Net.Op L A)) (layout : Layout L P) :
    (∀ G d, plotNetwork (Net.run Net.empty ops) layout = .ok (G, d) → DrawsNetwork G ops ∧
      ((layout = .name "shell" ∧ d = .shell) ∨ (layout = .name "spring" ∧ d = .spring) ∨
        ∃ ps, layout = .positions ps ∧ d = .positions ps)) ∧
    ((∃ e, plotNetwork (Net.run (Net.empty : Net L A) ops) layout = .error e) ↔
      ∃ s, layout = .name s ∧ s ≠ "shell" ∧ s ≠ "spring") := by
  have hd : DrawsNetwork (Net.run (Net.empty : Net L A) ops).toNetworkx ops := draws_of ops Prod.snd id (fun _ h => h)
  unfold plotNetwork plotLayout
  cases layout with
  | positions ps =>
    refine ⟨?_, ?_⟩
    · intro G d h
      cases h
      exact ⟨hd, Or.inr (Or.inr ⟨ps, rfl, rfl⟩)⟩
    · constructor
      · rintro ⟨e, h⟩; cases h
      · rintro ⟨s, h, _⟩; cases h
  | name s =>
    simp only
    by_cases h1 : s = "shell"
    · subst h1
      refine ⟨?_, ?_⟩
      · intro G d h; simp at h; obtain ⟨rfl, rfl⟩ := h; exact ⟨hd, Or.inl ⟨rfl, rfl⟩⟩
      · simp
    · by_cases h2 : s = "spring"
      · subst h2
        refine ⟨?_, ?_⟩
        · intro G d h; simp at h; obtain ⟨rfl, rfl⟩ := h; exact ⟨hd, Or.inr (Or.inl ⟨rfl, rfl⟩)⟩
        · simp
      · rw [if_neg h1, if_neg h2]
        refine ⟨?_, ?_⟩
        · intro G d h; cases h
        · constructor
          · intro _; exact ⟨s, rfl, h1, h2⟩
          · intro _; exact ⟨_, rfl⟩

/-- The layout of frame `i`. -/
def FrameLayout (layout : LayoutArg L P) (i : Nat) (l : Layout L P) : Prop :=
  layout = .one l ∨ ∃ ls, layout = .perFrame ls ∧ ls[i]? = some l

/-- The colour of frame `i`. -/
def FrameColor (color : ColorArg C) (i : Nat) (c : C) : Prop :=
  color = .one c ∨ ∃ d, color = .perFrame d ∧ d.get? i = some c

/-- How a layout is drawn in an animation. -/
def DrawnAs (l : Layout L P) (d : DrawWith L P) : Prop :=
  (l = .name "shell" ∧ d = .shell) ∨ (l = .name "spring" ∧ d = .spring) ∨ (l = .name "planar" ∧ d = .planar) ∨
  (l = .name "kamada-kawai" ∧ d = .kamadaKawai) ∨ ∃ ps, l = .positions ps ∧ d = .positions ps

omit [DecidableEq L] in
theorem animateLayout_iff (l : Layout L P) (d : DrawWith L P) : animateLayout l = .ok d ↔ DrawnAs l d := by
  unfold animateLayout DrawnAs
  cases l with
  | positions ps =>
    simp only [Except.ok.injEq, reduceCtorEq, false_and, false_or, Layout.positions.injEq]
    constructor
    · rintro rfl; exact ⟨ps, rfl, rfl⟩
    · rintro ⟨_, rfl, rfl⟩; rfl
  | name s =>
    simp only [Layout.name.injEq, reduceCtorEq, false_and, exists_const, or_false]
    by_cases h1 : s = "shell"
    · subst h1; simp [eq_comm]
    · by_cases h2 : s = "spring"
      · subst h2; simp [eq_comm]
      · by_cases h3 : s = "planar"
        · subst h3; simp [eq_comm]
        · by_cases h4 : s = "kamada-kawai"
          · subst h4; simp [eq_comm]
          · simp [h1, h2, h3, h4]

/-- C127.  `animate_network` has one frame per state.  Frame `i` can be drawn exactly if there is a colour and a layout for it and the
layout is a known one; it shows the nodes and edges of the network of state `i`, with that colour and layout, and the number `i + 1`
if timesteps are wanted. -/
theorem C127_animate (runs : List (List (Net.Op L A))) (layout : LayoutArg L P) (color : ColorArg C) (withTimestep : Bool) :
    (animateNetwork (runs.map (Net.run Net.empty)) layout color withTimestep).length = runs.length ∧
    ∀ (i : Nat) (ops : List (Net.Op L A)), runs[i]? = some ops →
      ∃ out, (animateNetwork (runs.map (Net.run Net.empty)) layout color withTimestep)[i]? = some out ∧
        ((∃ f, out = .ok f) ↔ (∃ c, FrameColor color i c) ∧ ∃ l d, FrameLayout layout i l ∧ DrawnAs l d) ∧
        ∀ f, out = .ok f → DrawsNetwork f.graph ops ∧ FrameColor color i f.color ∧
          (∃ l, FrameLayout layout i l ∧ DrawnAs l f.drawWith) ∧ f.title = if withTimestep then some (i + 1) else none := by
  refine ⟨by simp [animateNetwork], ?_⟩
  intro i ops hi
  refine ⟨netFrame layout color withTimestep i (Net.run Net.empty ops), ?_, ?_⟩
  · simp [animateNetwork, hi]
  · have hd : DrawsNetwork (frameGraph (Net.run (Net.empty : Net L A) ops)) ops := draws_of ops (fun _ => []) (fun _ => []) (fun _ _ => List.nodup_nil)
    have hcolor : ∀ c, colorAt color i = .ok c ↔ FrameColor color i c := by
      intro c
      unfold colorAt
      unfold FrameColor
      cases color with
      | one c' => simp
      | perFrame d =>
        simp only [reduceCtorEq, ColorArg.perFrame.injEq, false_or]
        cases h : d.get? i with
        | none => simp only [reduceCtorEq, false_iff]; rintro ⟨d', rfl, h'⟩; rw [h] at h'; cases h'
        | some c' =>
          constructor
          · intro e; cases e; exact ⟨d, rfl, h⟩
          · rintro ⟨d', rfl, h'⟩; rw [h] at h'; cases h'; rfl
    have hlayout : ∀ l, layoutAt layout i = .ok l ↔ FrameLayout layout i l := by
      intro l
      unfold layoutAt
      unfold FrameLayout
      cases layout with
      | one l' => simp
      | perFrame ls =>
        simp only [reduceCtorEq, LayoutArg.perFrame.injEq, false_or]
        by_cases h : i < ls.length
        · rw [pyGet_natCast ls h]
          constructor
          · intro e; cases e; exact ⟨ls, rfl, List.getElem?_eq_getElem h⟩
          · rintro ⟨ls', rfl, h'⟩; rw [List.getElem?_eq_getElem h] at h'; cases h'; rfl
        · have : pyGet ls (i : Int) = .error .indexError := by
            unfold pyGet
            rw [pyIndex_eq_none_iff.2 (by right; omega)]
          rw [this]
          constructor
          · intro e; cases e
          · rintro ⟨ls', rfl, h'⟩; rw [List.getElem?_eq_none (by omega)] at h'; cases h'
    unfold netFrame
    generalize colorAt color i = xc at hcolor ⊢
    generalize layoutAt layout i = xl at hlayout ⊢
    cases xc with
    | error e =>
      refine ⟨⟨?_, ?_⟩, ?_⟩
      · rintro ⟨f, h⟩; cases h
      · rintro ⟨⟨c, h⟩, _⟩; have := (hcolor c).2 h; cases this
      · intro f h; cases h
    | ok c =>
      have hc' := (hcolor c).1 rfl
      simp only
      cases xl with
      | error e =>
        refine ⟨⟨?_, ?_⟩, ?_⟩
        · rintro ⟨f, h⟩; cases h
        · rintro ⟨_, l, d, h, _⟩; have := (hlayout l).2 h; cases this
        · intro f h; cases h
      | ok l =>
        have hl' := (hlayout l).1 rfl
        simp only
        cases ha : animateLayout l with
        | error e =>
          refine ⟨⟨?_, ?_⟩, ?_⟩
          · rintro ⟨f, h⟩; cases h
          · rintro ⟨_, l', d, h, h'⟩
            have := (hlayout l').2 h
            cases this
            rw [(animateLayout_iff l d).2 h'] at ha
            cases ha
          · intro f h; cases h
        | ok d =>
          have hd' := (animateLayout_iff l d).1 ha
          refine ⟨⟨fun _ => ⟨⟨c, hc'⟩, l, d, hl', hd'⟩, fun _ => ⟨_, rfl⟩⟩, ?_⟩
          intro f h
          cases h
          exact ⟨hd, hc', ⟨l, hl', hd'⟩, rfl⟩

/-- C127.  The two functions do not take the same layouts: `planar` and `kamada-kawai` only work in animations. -/
theorem C127_layouts (n : Net L A) (s : String) (hs : s = "planar" ∨ s = "kamada-kawai") :
    plotNetwork n (.name s : Layout L P) = .error (.exception ("unsupported layout: " ++ s)) ∧
      ∃ d, animateLayout (.name s : Layout L P) = .ok d := by
  rcases hs with rfl | rfl
  · exact ⟨rfl, .planar, rfl⟩
  · exact ⟨rfl, .kamadaKawai, rfl⟩

end

/-! ## Examples -/

namespace Ex

/-- Two states of a 2 x 2 automaton. -/
example : ∀ d ∈ [[(0, (1 : Int)), (1, 0), (2, 0), (3, 1)], [(3, 4), (1, 5), (0, 6), (2, 7)]], NodeValues d (2 * 2) := by
  intro d hd
  unfold NodeValues
  simp only [List.mem_cons, List.not_mem_nil, or_false] at hd
  rcases hd with rfl | rfl <;> decide

/-- An animation of a network that grows, with a layout and a colour for each frame. -/
example : (∃ c, FrameColor (.perFrame [(0, "r"), (1, "b")]) 1 c) ∧
    ∃ l d, FrameLayout (.perFrame [.name "shell", .positions [((0 : Nat), ((1 : Int), (2 : Int)))]]) 1 l ∧ DrawnAs l d :=
  ⟨⟨"b", Or.inr ⟨_, rfl, rfl⟩⟩, _, _, Or.inr ⟨_, rfl, rfl⟩, Or.inr (Or.inr (Or.inr (Or.inr ⟨_, rfl, rfl⟩)))⟩

/-- Two nodes and a double edge. -/
example : DrawsNetwork (Net.run (Net.empty : Net Nat Int) [.addEdge 0 1 [], .addEdge 0 1 [("w", 2)]]).toNetworkx
    [.addEdge 0 1 [], .addEdge 0 1 [("w", 2)]] :=
  draws_of _ Prod.snd id (fun _ h => h)

/-- The hypotheses of `C126_multiple`, `C126_grid` and `C126_lines`. -/
example : IsImage [[(1 : Int), 2, 3], [4, 5, 6]] 2 3 ∧
    figureImage [[(1 : Int), 2, 3, 4]] (some [2, 2]) (-1) = .ok [[1, 2], [3, 4]] := by
  refine ⟨⟨rfl, by decide⟩, by decide⟩

end Ex
end Verif
