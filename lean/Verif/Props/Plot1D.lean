import Verif.Proofs.Plot1D
/-! # Properties C122 (`plot1D`) and C123 (frames and limits of the animations) -/

namespace Verif
open Spec

/-! ## C122 -/

/-- C122, partial.  Full claim: "for all arguments that the documentation allows, `plot1D` draws every series once, the
series in turn on the axes, each with its colour and label; every y-axis gets its label and both its limits".  Proved
here, for Python older than 3.10, for `ylim` absent or a list with a pair for each axis in use (two, or one for a single
series), `ylabel` absent, a string, or such a list, and `legend` absent or a dict.  What is missing is false: `ylim` as a
pair (`C122_ylim_pair`), a list with a single label for two series (`C122_one_ylabel`), `legend` as a list
(`C122_legend_list`), and lists at all on newer versions of Python (`C122_new_python`). -/
theorem C122_plot_partial (x : List Rat) (y : List PItem) (o : PlotOpts) (ss : List (List Rat))
    (h : SeriesArg y ss) (ht : o.twinx = true → 2 ≤ ss.length) (hlen : ∀ s ∈ ss, s.length = x.length)
    (hc : FitsArg ss.length o.color) (hl : FitsArg ss.length o.label) (hy : FitsArg (min ss.length 2) o.ylabel)
    (lims : List (Rat × Rat)) (hlim : (o.ylim = .absent ∧ lims = []) ∨ (o.ylim = .seq lims ∧ min ss.length 2 ≤ lims.length))
    (hleg : ∀ ds, o.legend = .seq ds → ds = []) :
    ∃ cs, plot1D true x y o = .ok cs ∧
      linesOf cs = ss.zipIdx.map (fun p => (p.2 % axesOf o, x, p.1, argAt o.label p.2, argAt o.color p.2)) ∧
      ylabelsOf cs = (List.range ss.length).flatMap (fun i =>
        (argAt o.ylabel (i % 2)).toList.map (fun v => (i % axesOf o, v, argAt o.color i))) ∧
      ylimsOf cs = (List.range ss.length).flatMap (fun i =>
        (lims[i % 2]?).toList.map (fun p => (i % axesOf o, p.1, some p.2))) := by
  have hlim' : ∀ ps, o.ylim = .seq ps → min ss.length 2 ≤ ps.length := by
    intro ps hp
    rcases hlim with ⟨h1, _⟩ | ⟨h1, h2⟩
    · rw [h1] at hp; cases hp
    · rw [h1] at hp; cases hp; exact h2
  obtain ⟨cs, c1, c2, c3, c4⟩ := plot1D_calls h ht hlen hc hl hy hlim' hleg
  refine ⟨cs, c1, c2, c3, ?_⟩
  rw [c4]
  congr 1
  funext i
  rcases hlim with ⟨h1, h2⟩ | ⟨h1, _⟩
  · rw [h1, h2]; rfl
  · rw [h1]
    simp only [limsAt, List.map_map]
    rfl

/-- C122, two axes: under the same hypotheses and with `twinx`, all labels and limits given to axis `a` are entry `a` of
the arguments, so that it ends up with its own label and its own limits. -/
theorem C122_twin (x : List Rat) (y : List PItem) (o : PlotOpts) (ss : List (List Rat))
    (h : SeriesArg y ss) (htw : o.twinx = true) (ht : 2 ≤ ss.length) (hlen : ∀ s ∈ ss, s.length = x.length)
    (hc : FitsArg ss.length o.color) (hl : FitsArg ss.length o.label) (hy : FitsArg (min ss.length 2) o.ylabel)
    (lims : List (Rat × Rat)) (hlim : (o.ylim = .absent ∧ lims = []) ∨ (o.ylim = .seq lims ∧ min ss.length 2 ≤ lims.length))
    (hleg : ∀ ds, o.legend = .seq ds → ds = []) :
    ∃ cs, plot1D true x y o = .ok cs ∧
      (∀ a v c, (a, v, c) ∈ ylabelsOf cs → a < 2 ∧ argAt o.ylabel a = some v) ∧
      (∀ a b t, (a, b, t) ∈ ylimsOf cs → a < 2 ∧ ∃ p, lims[a]? = some p ∧ b = p.1 ∧ t = some p.2) ∧
      (∀ a, a < 2 → ∀ v, argAt o.ylabel a = some v → ∃ c, (a, v, c) ∈ ylabelsOf cs) ∧
      (∀ a, a < 2 → ∀ p, lims[a]? = some p → (a, p.1, some p.2) ∈ ylimsOf cs) := by
  obtain ⟨cs, c1, _, c3, c4⟩ := C122_plot_partial x y o ss h (fun _ => ht) hlen hc hl hy lims hlim hleg
  have hax : axesOf o = 2 := by simp [axesOf, htw]
  rw [hax] at c3 c4
  refine ⟨cs, c1, ?_, ?_, ?_, ?_⟩
  · intro a v c hm
    rw [c3] at hm
    obtain ⟨i, _, hi⟩ := List.mem_flatMap.1 hm
    obtain ⟨u, hu, e⟩ := List.mem_map.1 hi
    cases e
    exact ⟨Nat.mod_lt _ (by omega), Option.mem_toList.1 hu⟩
  · intro a b t hm
    rw [c4] at hm
    obtain ⟨i, _, hi⟩ := List.mem_flatMap.1 hm
    obtain ⟨u, hu, e⟩ := List.mem_map.1 hi
    cases e
    exact ⟨Nat.mod_lt _ (by omega), u, Option.mem_toList.1 hu, rfl, rfl⟩
  · intro a ha v hv
    refine ⟨argAt o.color a, ?_⟩
    rw [c3, List.mem_flatMap]
    refine ⟨a, List.mem_range.2 (by omega), ?_⟩
    rw [Nat.mod_eq_of_lt ha, hv]
    simp
  · intro a ha p hp
    rw [c4, List.mem_flatMap]
    refine ⟨a, List.mem_range.2 (by omega), ?_⟩
    rw [Nat.mod_eq_of_lt ha, hp]
    simp

/-- C122 fails for `ylim` as a pair `(a, b)`, which the documentation allows: the calls of `set_ylim` get the single
number `a` for the series 0, 2, ... and `b` for the others, always as the lower limit, and no upper limit is set. -/
theorem C122_ylim_pair (x : List Rat) (y : List PItem) (o : PlotOpts) (ss : List (List Rat))
    (h : SeriesArg y ss) (ht : o.twinx = true → 2 ≤ ss.length) (hlen : ∀ s ∈ ss, s.length = x.length)
    (hc : FitsArg ss.length o.color) (hl : FitsArg ss.length o.label) (hy : FitsArg (min ss.length 2) o.ylabel)
    (a b : Rat) (hlim : o.ylim = .pair a b) (hleg : ∀ ds, o.legend = .seq ds → ds = []) :
    ∃ cs, plot1D true x y o = .ok cs ∧
      ylimsOf cs = (List.range ss.length).map (fun i => (i % axesOf o, (if i % 2 = 0 then a else b), none)) ∧
      ∀ c ∈ ylimsOf cs, c.2.2 = none := by
  obtain ⟨cs, c1, _, _, c4⟩ := plot1D_calls h ht hlen hc hl hy (fun ps hp => by rw [hlim] at hp; cases hp) hleg
  have e : ylimsOf cs = (List.range ss.length).map (fun i => (i % axesOf o, (if i % 2 = 0 then a else b), none)) := by
    rw [c4, ← flatMap_single]
    congr 1
    funext i
    rw [hlim]
    rfl
  refine ⟨cs, c1, e, ?_⟩
  intro c hm
  rw [e] at hm
  obtain ⟨i, _, rfl⟩ := List.mem_map.1 hm
  rfl

theorem series_head {y : List PItem} {ss : List (List Rat)} (h : SeriesArg y ss) : ∃ s, (s, 0) ∈ ss.zipIdx ∧ ss.head? = some s := by
  cases h with
  | many ss h => cases ss with
    | nil => exact absurd rfl h
    | cons s ss => exact ⟨s, by simp, rfl⟩
  | one qs h => exact ⟨qs, by simp, rfl⟩

theorem plot1D_first {old : Bool} {x : List Rat} {y : List PItem} {o : PlotOpts} {ss : List (List Rat)} {e : Err}
    (h : SeriesArg y ss) (ht : o.twinx = true → 2 ≤ ss.length)
    (he : ∀ s, ss.head? = some s → plotSeries old x o (axesOf o) (s, 0) = .error e) : plot1D old x y o = .error e := by
  rw [plot1D_rounds h ht]
  obtain ⟨s, _, h2⟩ := series_head h
  cases ss with
  | nil => cases h2
  | cons s' ss =>
    have := he s' rfl
    simp only [List.zipIdx_cons, plotRounds, this]

/-- C122 fails for `legend` as a list of dicts, which the documentation allows: `legend(**legend)` raises. -/
theorem C122_legend_list (x : List Rat) (y : List PItem) (o : PlotOpts) (ss : List (List Rat))
    (h : SeriesArg y ss) (ht : o.twinx = true → 2 ≤ ss.length) (hlen : ∀ s ∈ ss, s.length = x.length)
    (hc : FitsArg ss.length o.color) (hl : FitsArg ss.length o.label) (hy : FitsArg (min ss.length 2) o.ylabel)
    (hlim : ∀ ps, o.ylim = .seq ps → min ss.length 2 ≤ ps.length) (ds : List (List (String × PVal))) (hds : ds ≠ [])
    (hleg : o.legend = .seq ds) : plot1D true x y o = .error .typeError := by
  refine plot1D_first h ht ?_
  intro s hs
  have hpos : 0 < ss.length := by
    cases ss with
    | nil => cases hs
    | cons a l => simp
  have hsm : s ∈ ss := List.mem_of_mem_head? hs
  have hm : 0 % 2 < min ss.length 2 := by omega
  have hlg : legendCalls (0 % axesOf o) o.legend = .error .typeError := by
    rw [hleg]
    cases ds with
    | nil => exact absurd rfl hds
    | cons d ds => rfl
  unfold plotSeries
  simp only [optItem_fits hl hpos, optItem_fits hc hpos, if_pos (hlen _ hsm), ylabel_fits hc hy hpos hm,
    getLim_fits hlim hm, hlg]

/-- C122 fails for a list with a single y label and two or more series, which the documentation allows ("list of at most
two strings"): the second series takes item 1. -/
theorem C122_one_ylabel (x : List Rat) (o : PlotOpts) (s s' : List Rat) (ss : List (List Rat))
    (hlen : ∀ u ∈ s :: s' :: ss, u.length = x.length) (hc : FitsArg (ss.length + 2) o.color)
    (hl : FitsArg (ss.length + 2) o.label) (v : PVal) (hy : o.ylabel = .seq [v])
    (hlim : ∀ ps, o.ylim = .seq ps → 2 ≤ ps.length) (hleg : ∀ ds, o.legend = .seq ds → ds = []) :
    plot1D true x ((s :: s' :: ss).map .series) o = .error .indexError := by
  rw [plot1D_rounds (.many (s :: s' :: ss) (by simp)) (fun _ => by simp)]
  have hy1 : FitsArg 1 o.ylabel := by rw [hy]; exact ⟨by simp, by simp⟩
  have hm : ∀ i, i % 2 < 2 := fun i => Nat.mod_lt _ (by omega)
  obtain ⟨lg, hlg, _⟩ := legendCalls_none hleg (0 % axesOf o)
  have h0 : ∃ cs, plotSeries true x o (axesOf o) (s, 0) = .ok cs := by
    unfold plotSeries
    simp only [optItem_fits hl (show 0 < ss.length + 2 by omega), optItem_fits hc (show 0 < ss.length + 2 by omega),
      if_pos (hlen s (by simp)), ylabel_fits hc hy1 (show 0 < ss.length + 2 by omega) (show 0 % 2 < 1 by omega),
      getLim_fits hlim (hm 0), hlg]
    exact ⟨_, rfl⟩
  have h1 : plotSeries true x o (axesOf o) (s', 1) = .error .indexError := by
    have hyl : ylabelCalls true o (1 % axesOf o) 1 = .error .indexError := by
      unfold ylabelCalls
      rw [hy]
      simp only [optItem_fits hc (show 1 < ss.length + 2 by omega)]
      rfl
    unfold plotSeries
    simp only [optItem_fits hl (show 1 < ss.length + 2 by omega), optItem_fits hc (show 1 < ss.length + 2 by omega),
      if_pos (hlen s' (by simp)), hyl]
  obtain ⟨cs, h0⟩ := h0
  simp only [List.zipIdx_cons, plotRounds, h0, Nat.zero_add, h1]

/-- C122 fails from Python 3.10 on, where `collections.Sequence` does not exist: a list of labels, a list of colours,
and limits of the y-axis in any form raise `AttributeError`, whatever the series. -/
theorem C122_new_python (x : List Rat) (y : List PItem) (o : PlotOpts) (ss : List (List Rat))
    (h : SeriesArg y ss) (ht : o.twinx = true → 2 ≤ ss.length) (hlen : ∀ s ∈ ss, s.length = x.length)
    (hl : o.label = .item .none ∨ (∃ s, s ≠ "" ∧ o.label = .item (.str s)) ∨ ∃ l, l ≠ [] ∧ o.label = .seq l)
    (hc : o.color = .item .none ∨ (∃ s, s ≠ "" ∧ o.color = .item (.str s)) ∨ ∃ l, l ≠ [] ∧ o.color = .seq l)
    (hy : o.ylabel = .item .none ∨ (∃ s, s ≠ "" ∧ o.ylabel = .item (.str s)) ∨ ∃ l, l ≠ [] ∧ o.ylabel = .seq l)
    (hsome : (∃ l, o.label = .seq l) ∨ (∃ l, o.color = .seq l) ∨ (∃ l, o.ylabel = .seq l) ∨ (∃ a b, o.ylim = .pair a b) ∨
      ∃ ps, ps ≠ [] ∧ o.ylim = .seq ps) :
    plot1D false x y o = .error noSequence := by
  have opt : ∀ a : PArg, (a = .item .none ∨ (∃ s, s ≠ "" ∧ a = .item (.str s)) ∨ ∃ l, l ≠ [] ∧ a = .seq l) → ∀ i,
      (optItem false a i = .error noSequence ∧ getItem false a i = .error noSequence ∧ a.truthy = true ∧ ∃ l, a = .seq l) ∨
      ((∃ v, optItem false a i = .ok v) ∧ (a.truthy = true → ∃ v, getItem false a i = .ok v) ∧ ¬ ∃ l, a = .seq l) := by
    intro a ha i
    rcases ha with rfl | ⟨s, hs, rfl⟩ | ⟨l, hl, rfl⟩
    · exact .inr ⟨⟨none, rfl⟩, (by intro h; cases h), (by rintro ⟨l, h⟩; cases h)⟩
    · refine .inr ⟨⟨some (.str s), ?_⟩, fun _ => ⟨_, rfl⟩, (by rintro ⟨l, h⟩; cases h)⟩
      have : (PArg.item (.str s)).truthy = true := by simp [PArg.truthy, PVal.truthy, hs]
      simp only [optItem, this, getItem, if_true]
    · have ht : (PArg.seq l).truthy = true := by
        cases l with
        | nil => exact absurd rfl hl
        | cons a l => rfl
      refine .inl ⟨?_, rfl, ht, l, rfl⟩
      unfold optItem
      rw [ht, if_pos rfl]
      rfl
  refine plot1D_first h ht ?_
  intro s hs
  have hsm : s ∈ ss := List.mem_of_mem_head? hs
  unfold plotSeries
  rcases opt _ hl 0 with ⟨e1, _⟩ | ⟨⟨v1, e1⟩, _, n1⟩
  · simp only [e1]
  · simp only [e1]
    rcases opt _ hc 0 with ⟨e2, _⟩ | ⟨⟨v2, e2⟩, _, n2⟩
    · simp only [e2]
    · simp only [e2, if_pos (hlen _ hsm)]
      rcases opt _ hy (0 % 2) with ⟨_, e3, t3, _⟩ | ⟨_, e3, n3⟩
      · simp only [ylabelCalls, t3, if_true, e2, e3]
      · have hyl : ∃ v, ylabelCalls false o (0 % axesOf o) 0 = .ok v := by
          unfold ylabelCalls
          by_cases t : o.ylabel.truthy = true
          · obtain ⟨v, e3⟩ := e3 t
            rw [if_pos t, e2, e3]
            exact ⟨_, rfl⟩
          · rw [if_neg t]; exact ⟨_, rfl⟩
        obtain ⟨v3, e4⟩ := hyl
        simp only [e4]
        rcases hsome with hx | hx | hx | ⟨a, b, hx⟩ | ⟨ps, hps, hx⟩
        · exact absurd hx n1
        · exact absurd hx n2
        · exact absurd hx n3
        · rw [hx]; rfl
        · cases ps with
          | nil => exact absurd rfl hps
          | cons p ps => rw [hx]; rfl

/-- The options of the spring demo (demos/continuous_time_models/single_spring_netomaton_demo.py:46-50). -/
def springOpts : PlotOpts :=
  { color := .seq [.str "blue", .str "orange"], xlabel := .str "t", ylabel := .seq [.str "x(t)", .str "v(t)"],
    ylim := .seq [((-6 : Rat), (6 : Rat)), ((-6 : Rat), (6 : Rat))], twinx := true }

/-- The call of the spring demo (two axes; with short lists), and the same call from Python 3.10 on. -/
example :
    SeriesArg [.series [1, 2, 3], .series [4, 5, 6]] [[1, 2, 3], [4, 5, 6]] ∧ FitsArg 2 springOpts.color ∧ FitsArg 2 springOpts.label ∧ FitsArg 2 springOpts.ylabel ∧
    plot1D true [0, 1, 2] [.series [1, 2, 3], .series [4, 5, 6]] springOpts = .ok
      [.plot 0 [0, 1, 2] [1, 2, 3] none (some (.str "blue")), .xlabel 0 (.str "t"), .ylabel 0 (.str "x(t)") (some (.str "blue")),
        .ylim 0 (-6) (some 6), .plot 1 [0, 1, 2] [4, 5, 6] none (some (.str "orange")), .xlabel 1 (.str "t"),
        .ylabel 1 (.str "v(t)") (some (.str "orange")), .ylim 1 (-6) (some 6)] ∧
    plot1D false [0, 1, 2] [.series [1, 2, 3], .series [4, 5, 6]] springOpts = .error noSequence := by
  refine ⟨.many [[1, 2, 3], [4, 5, 6]] (by simp), ⟨by simp, by simp⟩, trivial, ⟨by simp, by simp⟩, by decide +kernel, by decide +kernel⟩

/-- One series with `ylim=(0, 1)`: only the lower limit is set; with a list of one pair both are. -/
example : plot1D true [0, 1] [.num 3, .num 4] { ylim := .pair 0 1 } = .ok [.plot 0 [0, 1] [3, 4] none none, .ylim 0 0 none] ∧
    plot1D true [0, 1] [.num 3, .num 4] { ylim := .seq [(0, 1)] } = .ok [.plot 0 [0, 1] [3, 4] none none, .ylim 0 0 (some 1)] ∧
    plot1D true [0, 1] [.series [3, 4], .series [5, 6]] { ylabel := .seq [.str "a"] } = .error .indexError ∧
    plot1D true [0, 1] [.num 3, .num 4] { legend := .seq [[("loc", .num 1)]] } = .error .typeError ∧
    plot1D true [0, 1] [.num 3, .num 4] { twinx := true } = .error (.exception "an item in y must be a list representing a y series") ∧
    plot1D true [0, 1] [] {} = .error .indexError ∧ plot1D true [0, 1] [.num 3] {} = .error .valueError := by decide +kernel

/-- C122: whatever the arguments, a call that does not raise sets, once for each series and on the axis of that series, the
label of x, the limits of x and the legend, those of them that are given; and in the end adjusts the layout and sets the
title, if they are given.  A list of numbers is one series. -/
theorem C122_decorations (old : Bool) (x : List Rat) (y : List PItem) (o : PlotOpts) (cs : List DrawCall)
    (h : plot1D old x y o = .ok cs) :
    decorationsOf cs =
      (List.range (seriesCount y)).flatMap (fun i => axisDecorations o (i % axesOf o)) ++
      ((if o.tight then [.tight] else []) ++ (if Absent o.title then [] else [.title o.title])) := by
  unfold plot1D at h
  split at h
  · cases h
  · split at h
    · cases h
    · split at h
      · cases h
      · rename_i ss hss
        split at h
        · cases h
        · rename_i cs' hcs
          cases h
          have h1 : decorationsOf (if o.tight then [.tight] else []) = (if o.tight then [.tight] else []) := by split <;> rfl
          have h2 : decorationsOf (if Absent o.title then [] else [.title o.title]) =
              (if Absent o.title then [] else [.title o.title]) := by split <;> rfl
          rw [given_eq, decorationsOf_append, decorationsOf_append, h1, h2, plotRounds_decorations _ _ hcs,
            flatMap_zipIdx (fun i => axisDecorations o (i % (if o.twinx then 2 else 1))), seriesOf_length hss]
          rfl

/-- C122: two axes need two series, and every item must be a series; without them the call raises.  No values at all, or a
series among numbers, raise in any case. -/
theorem C122_errors (old : Bool) (x : List Rat) (y : List PItem) (o : PlotOpts) :
    (o.twinx = true → y.length < 2 →
      plot1D old x y o = .error (.exception "there must be at least two series of y values provided")) ∧
    (o.twinx = true → 2 ≤ y.length → (∃ q, .num q ∈ y) →
      plot1D old x y o = .error (.exception "an item in y must be a list representing a y series")) ∧
    (o.twinx = false → y = [] → plot1D old x y o = .error .indexError) ∧
    (o.twinx = false → (∃ q t, y = .num q :: t) → (∃ s, .series s ∈ y) → plot1D old x y o = .error .valueError) := by
  refine ⟨?_, ?_, ?_, ?_⟩
  · intro h1 h2
    unfold plot1D
    rw [h1, decide_eq_true h2]
    rfl
  · rintro h1 h2 ⟨q, hq⟩
    have : y.all PItem.isSeries = false := by
      rw [List.all_eq_false]
      exact ⟨_, hq, by simp [PItem.isSeries]⟩
    unfold plot1D
    rw [h1, decide_eq_false (by omega), this]
    rfl
  · rintro h1 rfl
    unfold plot1D
    rw [h1]
    rfl
  · rintro h1 ⟨q, t, rfl⟩ ⟨s, hs⟩
    have hall : (PItem.num q :: t).all (fun it => !it.isSeries) = false := by
      rw [List.all_eq_false]
      exact ⟨_, hs, by simp [PItem.isSeries]⟩
    unfold plot1D
    rw [h1]
    simp only [seriesOf, hall]
    rfl

/-- The x axis of both axes of a plot with two series, a legend and a title. -/
def Ex.decorated : PlotOpts :=
  { xlabel := .str "time", twinx := true, xlim := some (0, 2), legend := .dict [("loc", .str "best")], title := .str "T" }

example : ∃ cs, plot1D true [0, 1] [.series [1, 2], .series [3, 4]] Ex.decorated = .ok cs ∧ decorationsOf cs =
    [.xlabel 0 (.str "time"), .xlim 0 0 2, .legend 0 [("loc", .str "best")],
      .xlabel 1 (.str "time"), .xlim 1 0 2, .legend 1 [("loc", .str "best")], .title (.str "T")] :=
  ⟨_, rfl, rfl⟩

example : plot1D true [0, 1] [.num 1, .series [3, 4]] {} = .error .valueError :=
  (C122_errors true [0, 1] [.num 1, .series [3, 4]] {}).2.2.2 rfl ⟨_, _, rfl⟩ ⟨_, List.mem_cons_of_mem _ List.mem_cons_self⟩

/-! ## C123 -/

/-- C123.  Call number `k` of the update function of `animate_activities` or `animate_hex` shows frame `k mod n` of `n`
frames, with the number of its timestep in the title. -/
theorem C123_frames {V : Type} (activities : List V) (hn : activities ≠ []) (k : Nat) :
    ∃ h : k % activities.length < activities.length,
      shownFrame activities k = .ok (activities[k % activities.length], k % activities.length + 1) := by
  have hpos : 0 < activities.length := List.length_pos_iff.2 hn
  refine ⟨Nat.mod_lt _ hpos, ?_⟩
  unfold shownFrame
  rw [frameIndex_mod hpos, pyGet_natCast _ (Nat.mod_lt _ hpos)]

/-- C123.  As many calls in a row as there are frames show every frame exactly once. -/
theorem C123_once (n : Nat) (hn : 0 < n) (k : Nat) :
    ((List.range n).map (fun i => frameIndex n (k + i))).Perm (List.range n) := by
  have hnd : ((List.range n).map (fun i => frameIndex n (k + i))).Nodup := by
    rw [List.nodup_iff_pairwise_ne, List.pairwise_map]
    refine List.Pairwise.imp_of_mem ?_ List.nodup_range
    intro a b ha hb hab e
    rw [frameIndex_mod hn, frameIndex_mod hn] at e
    have ha := List.mem_range.1 ha
    have hb := List.mem_range.1 hb
    have d1 := Nat.div_add_mod (k + a) n
    have d2 := Nat.div_add_mod (k + b) n
    rw [e] at d1
    generalize (k + a) / n = u at d1
    generalize (k + b) / n = v at d2
    rcases Nat.lt_trichotomy u v with h | h | h
    · have := Nat.mul_le_mul_left n (show u + 1 ≤ v from h)
      rw [Nat.mul_add, Nat.mul_one] at this
      omega
    · subst h; omega
    · have := Nat.mul_le_mul_left n (show v + 1 ≤ u from h)
      rw [Nat.mul_add, Nat.mul_one] at this
      omega
  refine (List.perm_ext_iff_of_nodup hnd List.nodup_range).2 ?_
  intro j
  rw [List.mem_map, List.mem_range]
  constructor
  · rintro ⟨i, _, rfl⟩
    rw [frameIndex_mod hn]
    exact Nat.mod_lt _ hn
  · intro hj
    have hk := Nat.mod_lt k hn
    have hd := Nat.div_add_mod k n
    by_cases h : k % n ≤ j
    · refine ⟨j - k % n, List.mem_range.2 (by omega), ?_⟩
      rw [frameIndex_mod hn]
      have e : k + (j - k % n) = j + n * (k / n) := by omega
      rw [e, Nat.add_mul_mod_self_left, Nat.mod_eq_of_lt hj]
    · refine ⟨j + n - k % n, List.mem_range.2 (by omega), ?_⟩
      rw [frameIndex_mod hn]
      have e : k + (j + n - k % n) = j + n * (k / n + 1) := by rw [Nat.mul_add, Nat.mul_one]; omega
      rw [e, Nat.add_mul_mod_self_left, Nat.mod_eq_of_lt hj]

theorem padLimits_spec {lo hi : Rat} (h : lo ≤ hi) :
    (padLimits lo hi).2 - hi = (hi - lo) / 20 ∧ lo - (padLimits lo hi).1 = (hi - lo) / 20 + (hi - lo) / 400 ∧
      (padLimits lo hi).1 ≤ lo ∧ hi ≤ (padLimits lo hi).2 ∧ ((padLimits lo hi).1 < lo ↔ lo < hi) ∧
      (hi < (padLimits lo hi).2 ↔ lo < hi) := by
  have e1 : (padLimits lo hi).1 = lo - (1 / 20) * (hi + (1 / 20) * (hi - lo) - lo) := rfl
  have e2 : (padLimits lo hi).2 = hi + (1 / 20) * (hi - lo) := rfl
  rw [e1, e2]
  refine ⟨by grind, by grind, by grind, by grind, ⟨fun h => ?_, fun h => ?_⟩, ⟨fun h => ?_, fun h => ?_⟩⟩ <;> grind

/-- C123.  The limits of `Turtle.animate` for an axis whose end points have least value `lo` and greatest value `hi`: every
end point lies between them, the margin above is a twentieth of `hi - lo`, and the margin below is a twentieth of that
plus the margin above; so the margin is wider below than above unless the drawing has no extent. -/
theorem C123_limits (vals : List (Rat × Rat)) (hv : vals ≠ []) :
    ∃ lo hi mn mx, animateLimits vals = .ok (mn, mx) ∧
      (∀ p ∈ vals, lo ≤ p.1 ∧ p.1 ≤ hi ∧ lo ≤ p.2 ∧ p.2 ≤ hi) ∧
      (∃ p ∈ vals, lo = p.1 ∨ lo = p.2) ∧ (∃ p ∈ vals, hi = p.1 ∨ hi = p.2) ∧
      mx - hi = (hi - lo) / 20 ∧ lo - mn = (hi - lo) / 20 + (hi - lo) / 400 ∧ mn ≤ lo ∧ hi ≤ mx ∧
      (mn < lo ↔ lo < hi) ∧ (hi < mx ↔ lo < hi) := by
  obtain ⟨p, vs, rfl⟩ : ∃ p vs, vals = p :: vs := by
    cases vals with
    | nil => exact absurd rfl hv
    | cons p vs => exact ⟨p, vs, rfl⟩
  have hflat : (p :: vs).flatMap (fun p => [p.1, p.2]) = p.1 :: (p.2 :: vs.flatMap (fun p => [p.1, p.2])) := by
    simp
  generalize hw : (p.2 :: vs.flatMap (fun p => [p.1, p.2])) = ws at hflat
  have hmem : ∀ q ∈ p :: vs, q.1 ∈ p.1 :: ws ∧ q.2 ∈ p.1 :: ws := by
    intro q hq
    rw [← hflat]
    exact ⟨List.mem_flatMap.2 ⟨q, hq, by simp⟩, List.mem_flatMap.2 ⟨q, hq, by simp⟩⟩
  have hback : ∀ v ∈ p.1 :: ws, ∃ q ∈ p :: vs, v = q.1 ∨ v = q.2 := by
    intro v hv
    rw [← hflat] at hv
    obtain ⟨q, hq, hv⟩ := List.mem_flatMap.1 hv
    refine ⟨q, hq, ?_⟩
    simpa using hv
  obtain ⟨m1, m2⟩ := foldl_min_le ws p.1
  obtain ⟨x1, x2⟩ := le_foldl_max ws p.1
  have hmin : ∀ v ∈ p.1 :: ws, ws.foldl min p.1 ≤ v := by
    intro v hv
    rcases List.mem_cons.1 hv with rfl | hv
    · exact m1
    · exact m2 v hv
  have hmax : ∀ v ∈ p.1 :: ws, v ≤ ws.foldl max p.1 := by
    intro v hv
    rcases List.mem_cons.1 hv with rfl | hv
    · exact x1
    · exact x2 v hv
  have hlh : ws.foldl min p.1 ≤ ws.foldl max p.1 := Rat.le_trans m1 x1
  refine ⟨ws.foldl min p.1, ws.foldl max p.1, _, _, by unfold animateLimits; rw [hflat], ?_,
    hback _ (rat_foldl_min_mem _ _), hback _ (rat_foldl_max_mem _ _), ?_⟩
  · intro q hq
    exact ⟨hmin _ (hmem q hq).1, hmax _ (hmem q hq).1, hmin _ (hmem q hq).2, hmax _ (hmem q hq).2⟩
  · exact padLimits_spec hlh

/-- C123.  A turtle that has not moved cannot be animated: `np.max` of nothing raises. -/
theorem C123_no_trajectory : animateLimits [] = .error .valueError := rfl

example : (List.range 7).map (frameIndex 3) = [0, 1, 2, 0, 1, 2, 0] ∧ shownFrame ["a", "b", "c"] 5 = .ok ("c", 3) ∧
    shownFrame (V := String) [] 5 = .error .indexError ∧
    animateLimits [(0, 4), (4, 20)] = .ok (-21 / 20, 21) := by decide +kernel

end Verif
