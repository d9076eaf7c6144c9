import Verif.Spec.Plot1D
/-! # Lemmas for C122 and C123 -/

namespace Verif
open Spec

theorem getItem_fits {n i : Nat} {a : PArg} (h : FitsArg n a) (hi : i < n) (ha : a ≠ .item .none) :
    ∃ v, argAt a i = some v ∧ getItem true a i = .ok v := by
  match a, h, ha with
  | .item .none, _, ha => exact absurd rfl ha
  | .item (.str s), _, _ => exact ⟨_, rfl, rfl⟩
  | .item (.num q), _, _ => exact ⟨_, rfl, rfl⟩
  | .seq l, h, _ =>
    have hl : i < l.length := Nat.lt_of_lt_of_le hi h.2
    refine ⟨l[i], by simp [argAt, hl], ?_⟩
    simp only [getItem, if_true]
    exact pyGet_natCast _ hl

theorem truthy_fits {n : Nat} {a : PArg} (h : FitsArg n a) : a.truthy = decide (a ≠ .item .none) := by
  match a, h with
  | .item .none, _ => rfl
  | .item (.str s), h => simp only [PArg.truthy, PVal.truthy]; simp [FitsArg] at h; simp [h]
  | .item (.num q), h => simp only [PArg.truthy, PVal.truthy]; simp [FitsArg] at h; simp [h]
  | .seq l, h => cases l with
    | nil => exact absurd rfl h.1
    | cons a l => simp [PArg.truthy]

theorem optItem_fits {n i : Nat} {a : PArg} (h : FitsArg n a) (hi : i < n) : optItem true a i = .ok (argAt a i) := by
  unfold optItem
  rw [truthy_fits h]
  by_cases ha : a = .item .none
  · subst ha; rfl
  · obtain ⟨v, h1, h2⟩ := getItem_fits h hi ha
    rw [decide_eq_true ha, if_pos rfl, h2, h1]

theorem ylabel_fits {n m i : Nat} {o : PlotOpts} (hc : FitsArg n o.color) (hy : FitsArg m o.ylabel) (hi : i < n)
    (him : i % 2 < m) (axis : Nat) :
    ylabelCalls true o axis i = .ok ((argAt o.ylabel (i % 2)).toList.map (fun v => .ylabel axis v (argAt o.color i))) := by
  unfold ylabelCalls
  rw [truthy_fits hy]
  by_cases ha : o.ylabel = .item .none
  · rw [ha]; rfl
  · obtain ⟨v, h1, h2⟩ := getItem_fits hy him ha
    rw [decide_eq_true ha, if_pos rfl, optItem_fits hc hi, h2, h1]
    rfl

/-- The limits of the y-axis set for series `i`. -/
def limsAt : PLim → Nat → List (Rat × Option Rat)
  | .absent, _ => []
  | .pair a b, i => [(if i % 2 = 0 then a else b, none)]
  | .seq l, i => (l[i % 2]?).toList.map (fun p => (p.1, some p.2))

theorem getLim_fits {i m : Nat} {l : PLim} (h : ∀ ps, l = .seq ps → m ≤ ps.length) (hi : i % 2 < m) :
    getLim true l i = .ok (limsAt l i) := by
  match l, h with
  | .absent, _ => rfl
  | .pair a b, _ => rfl
  | .seq [], _ => rfl
  | .seq (p :: ps), h =>
    have hl : i % 2 < (p :: ps).length := Nat.lt_of_lt_of_le hi (h _ rfl)
    simp only [getLim, if_true]
    rw [pyGet_natCast _ hl]
    simp only [limsAt]
    rw [List.getElem?_eq_getElem hl]
    rfl

/-- The calls of one round. -/
def roundCalls (x : List Rat) (o : PlotOpts) (axes : Nat) (lg : List DrawCall) (p : List Rat × Nat) : List DrawCall :=
  .plot (p.2 % axes) x p.1 (argAt o.label p.2) (argAt o.color p.2) ::
    ((if o.xlabel.truthy then [.xlabel (p.2 % axes) o.xlabel] else []) ++
    (((argAt o.ylabel (p.2 % 2)).toList.map (fun v => .ylabel (p.2 % axes) v (argAt o.color p.2))) ++
    ((match o.xlim with | some (a, b) => [.xlim (p.2 % axes) a b] | none => []) ++
    ((limsAt o.ylim p.2).map (fun l => .ylim (p.2 % axes) l.1 l.2) ++ lg))))

theorem plotRounds_ok {old : Bool} {x : List Rat} {o : PlotOpts} {axes : Nat} {g : List Rat × Nat → List DrawCall} :
    ∀ (ps : List (List Rat × Nat)), (∀ p ∈ ps, plotSeries old x o axes p = .ok (g p)) →
      plotRounds old x o axes ps = .ok (ps.flatMap g)
  | [], _ => rfl
  | p :: ps, h => by
      simp only [plotRounds, h p List.mem_cons_self,
        plotRounds_ok ps (fun q hq => h q (List.mem_cons_of_mem _ hq)), List.flatMap_cons]

theorem plotRounds_error {old : Bool} {x : List Rat} {o : PlotOpts} {axes : Nat} {e : Err} :
    ∀ (ps : List (List Rat × Nat)) (q : List Rat × Nat), q ∈ ps → plotSeries old x o axes q = .error e →
      (∀ p ∈ ps, plotSeries old x o axes p = .error e ∨ ∃ cs, plotSeries old x o axes p = .ok cs) →
      plotRounds old x o axes ps = .error e
  | [], _, h, _, _ => by cases h
  | p :: ps, q, hq, he, h => by
      rcases h p List.mem_cons_self with hp | ⟨cs, hp⟩
      · simp only [plotRounds, hp]
      · have hq' : q ∈ ps := by
          rcases List.mem_cons.1 hq with rfl | hq
          · rw [hp] at he; cases he
          · exact hq
        simp only [plotRounds, hp,
          plotRounds_error ps q hq' he (fun p' hp' => h p' (List.mem_cons_of_mem _ hp'))]

theorem seriesOf_ok {y : List PItem} {ss : List (List Rat)} (h : SeriesArg y ss) : seriesOf y = .ok ss := by
  cases h with
  | many ss h =>
    cases ss with
    | nil => exact absurd rfl h
    | cons s ss => simp [seriesOf, Function.comp_def]
  | one qs h =>
    cases qs with
    | nil => exact absurd rfl h
    | cons q qs => simp [seriesOf, PItem.isSeries, Function.comp_def]

/-- The first checks of `plot1D` pass. -/
theorem plot1D_rounds {old : Bool} {x : List Rat} {y : List PItem} {o : PlotOpts} {ss : List (List Rat)}
    (h : SeriesArg y ss) (ht : o.twinx = true → 2 ≤ ss.length) :
    plot1D old x y o = match plotRounds old x o (axesOf o) ss.zipIdx with
      | .error e => .error e
      | .ok cs => .ok (cs ++ ((if o.tight then [.tight] else []) ++ (if o.title.truthy then [.title o.title] else []))) := by
  unfold plot1D
  rw [seriesOf_ok h]
  have h1 : (o.twinx && decide (y.length < 2)) = false := by
    cases htw : o.twinx with
    | false => rfl
    | true =>
      have := ht htw
      cases h with
      | many ss h => simp; omega
      | one qs h => simp at this
  have h2 : (o.twinx && !y.all PItem.isSeries) = false := by
    cases htw : o.twinx with
    | false => rfl
    | true =>
      have := ht htw
      cases h with
      | many ss h => simp [PItem.isSeries]
      | one qs h => simp at this
  rw [h1, h2]
  rfl

theorem mem_zipIdx_zero {α : Type} {l : List α} {p : α × Nat} (h : p ∈ l.zipIdx) : p.2 < l.length ∧ p.1 ∈ l := by
  obtain ⟨a, i⟩ := p
  have := List.mem_zipIdx h
  refine ⟨by simpa using this.2.1, ?_⟩
  rw [this.2.2]
  exact List.getElem_mem _

theorem linesOf_append (a b : List DrawCall) : linesOf (a ++ b) = linesOf a ++ linesOf b := by simp [linesOf]
theorem ylabelsOf_append (a b : List DrawCall) : ylabelsOf (a ++ b) = ylabelsOf a ++ ylabelsOf b := by simp [ylabelsOf]
theorem ylimsOf_append (a b : List DrawCall) : ylimsOf (a ++ b) = ylimsOf a ++ ylimsOf b := by simp [ylimsOf]

/-- The calls at the end. -/
def endCalls (o : PlotOpts) : List DrawCall :=
  (if o.tight then [.tight] else []) ++ (if o.title.truthy then [.title o.title] else [])

theorem endCalls_none (o : PlotOpts) : linesOf (endCalls o) = [] ∧ ylabelsOf (endCalls o) = [] ∧ ylimsOf (endCalls o) = [] := by
  unfold endCalls
  refine ⟨?_, ?_, ?_⟩ <;> (split <;> split <;> rfl)

theorem roundCalls_read (x : List Rat) (o : PlotOpts) (axes : Nat) (lg : List DrawCall)
    (hlg : linesOf lg = [] ∧ ylabelsOf lg = [] ∧ ylimsOf lg = []) (p : List Rat × Nat) :
    linesOf (roundCalls x o axes lg p) = [(p.2 % axes, x, p.1, argAt o.label p.2, argAt o.color p.2)] ∧
    ylabelsOf (roundCalls x o axes lg p) =
      (argAt o.ylabel (p.2 % 2)).toList.map (fun v => (p.2 % axes, v, argAt o.color p.2)) ∧
    ylimsOf (roundCalls x o axes lg p) = (limsAt o.ylim p.2).map (fun l => (p.2 % axes, l.1, l.2)) := by
  obtain ⟨g1, g2, g3⟩ := hlg
  have e1 : linesOf (if o.xlabel.truthy then [.xlabel (p.2 % axes) o.xlabel] else []) = [] ∧
      ylabelsOf (if o.xlabel.truthy then [.xlabel (p.2 % axes) o.xlabel] else []) = [] ∧
      ylimsOf (if o.xlabel.truthy then [.xlabel (p.2 % axes) o.xlabel] else []) = [] := by
    refine ⟨?_, ?_, ?_⟩ <;> (split <;> rfl)
  have e2 : linesOf (match o.xlim with | some (a, b) => [DrawCall.xlim (p.2 % axes) a b] | none => []) = [] ∧
      ylabelsOf (match o.xlim with | some (a, b) => [DrawCall.xlim (p.2 % axes) a b] | none => []) = [] ∧
      ylimsOf (match o.xlim with | some (a, b) => [DrawCall.xlim (p.2 % axes) a b] | none => []) = [] := by
    refine ⟨?_, ?_, ?_⟩ <;> (split <;> rfl)
  have e3 : ∀ (l : Option PVal) (c : Option PVal), linesOf (l.toList.map (fun v => .ylabel (p.2 % axes) v c)) = [] ∧
      ylabelsOf (l.toList.map (fun v => .ylabel (p.2 % axes) v c)) = l.toList.map (fun v => (p.2 % axes, v, c)) ∧
      ylimsOf (l.toList.map (fun v => .ylabel (p.2 % axes) v c)) = [] := by
    intro l c
    cases l <;> exact ⟨rfl, rfl, rfl⟩
  have e4 : ∀ (l : List (Rat × Option Rat)), linesOf (l.map (fun l => .ylim (p.2 % axes) l.1 l.2)) = [] ∧
      ylabelsOf (l.map (fun l => .ylim (p.2 % axes) l.1 l.2)) = [] ∧
      ylimsOf (l.map (fun l => .ylim (p.2 % axes) l.1 l.2)) = l.map (fun l => (p.2 % axes, l.1, l.2)) := by
    intro l
    induction l with
    | nil => exact ⟨rfl, rfl, rfl⟩
    | cons a l ih =>
      simp only [linesOf, ylabelsOf, ylimsOf, List.map_cons, List.filterMap_cons] at ih ⊢
      exact ⟨ih.1, ih.2.1, by rw [ih.2.2]⟩
  have hc : ∀ (r : List DrawCall) a xs ys l c, linesOf (DrawCall.plot a xs ys l c :: r) = (a, xs, ys, l, c) :: linesOf r ∧
      ylabelsOf (DrawCall.plot a xs ys l c :: r) = ylabelsOf r ∧ ylimsOf (DrawCall.plot a xs ys l c :: r) = ylimsOf r := by
    intro r a xs ys l c
    exact ⟨rfl, rfl, rfl⟩
  unfold roundCalls
  refine ⟨?_, ?_, ?_⟩
  · rw [(hc _ _ _ _ _ _).1]
    simp only [linesOf_append, e1.1, e2.1, (e3 _ _).1, (e4 _).1, g1, List.append_nil]
  · rw [(hc _ _ _ _ _ _).2.1]
    simp only [ylabelsOf_append, e1.2.1, e2.2.1, (e3 _ _).2.1, (e4 _).2.1, g2, List.append_nil, List.nil_append]
  · rw [(hc _ _ _ _ _ _).2.2]
    simp only [ylimsOf_append, e1.2.2, e2.2.2, (e3 _ _).2.2, (e4 _).2.2, g3, List.append_nil, List.nil_append]

theorem linesOf_flatMap {α : Type} (g : α → List DrawCall) (ps : List α) : linesOf (ps.flatMap g) = ps.flatMap (fun p => linesOf (g p)) := by
  induction ps with
  | nil => rfl
  | cons p ps ih => rw [List.flatMap_cons, linesOf_append, ih, List.flatMap_cons]
theorem ylabelsOf_flatMap {α : Type} (g : α → List DrawCall) (ps : List α) : ylabelsOf (ps.flatMap g) = ps.flatMap (fun p => ylabelsOf (g p)) := by
  induction ps with
  | nil => rfl
  | cons p ps ih => rw [List.flatMap_cons, ylabelsOf_append, ih, List.flatMap_cons]
theorem ylimsOf_flatMap {α : Type} (g : α → List DrawCall) (ps : List α) : ylimsOf (ps.flatMap g) = ps.flatMap (fun p => ylimsOf (g p)) := by
  induction ps with
  | nil => rfl
  | cons p ps ih => rw [List.flatMap_cons, ylimsOf_append, ih, List.flatMap_cons]

theorem flatMap_single {α β : Type} (f : α → β) (l : List α) : l.flatMap (fun a => [f a]) = l.map f := by
  induction l with
  | nil => rfl
  | cons a l ih => rw [List.flatMap_cons, ih]; rfl

theorem flatMap_zipIdx {α β : Type} (F : Nat → List β) (l : List α) :
    l.zipIdx.flatMap (fun p => F p.2) = (List.range l.length).flatMap F := by
  have h : l.zipIdx.map Prod.snd = List.range l.length := by
    rw [List.zipIdx_map_snd, List.range_eq_range']
  rw [← h, List.flatMap_map]

theorem legendCalls_none {l : PLegend} (h : ∀ ds, l = .seq ds → ds = []) (axis : Nat) :
    ∃ lg, legendCalls axis l = .ok lg ∧ linesOf lg = [] ∧ ylabelsOf lg = [] ∧ ylimsOf lg = [] := by
  match l, h with
  | .absent, _ => exact ⟨_, rfl, rfl, rfl, rfl⟩
  | .dict d, _ =>
    refine ⟨_, rfl, ?_, ?_, ?_⟩ <;> (split <;> rfl)
  | .seq ds, h =>
    have := h ds rfl
    subst this
    exact ⟨_, rfl, rfl, rfl, rfl⟩

/-- A whole call whose limits may still be a pair. -/
theorem plot1D_calls {x : List Rat} {y : List PItem} {o : PlotOpts} {ss : List (List Rat)}
    (h : SeriesArg y ss) (ht : o.twinx = true → 2 ≤ ss.length) (hlen : ∀ s ∈ ss, s.length = x.length)
    (hc : FitsArg ss.length o.color) (hl : FitsArg ss.length o.label) (hy : FitsArg (min ss.length 2) o.ylabel)
    (hlim : ∀ ps, o.ylim = .seq ps → min ss.length 2 ≤ ps.length) (hleg : ∀ ds, o.legend = .seq ds → ds = []) :
    ∃ cs, plot1D true x y o = .ok cs ∧
      linesOf cs = ss.zipIdx.map (fun p => (p.2 % axesOf o, x, p.1, argAt o.label p.2, argAt o.color p.2)) ∧
      ylabelsOf cs = (List.range ss.length).flatMap (fun i =>
        (argAt o.ylabel (i % 2)).toList.map (fun v => (i % axesOf o, v, argAt o.color i))) ∧
      ylimsOf cs = (List.range ss.length).flatMap (fun i => (limsAt o.ylim i).map (fun l => (i % axesOf o, l.1, l.2))) := by
  have hex : ∃ lg : Nat → List DrawCall, ∀ a, legendCalls a o.legend = .ok (lg a) ∧ linesOf (lg a) = [] ∧
      ylabelsOf (lg a) = [] ∧ ylimsOf (lg a) = [] :=
    ⟨fun a => (legendCalls_none hleg a).choose, fun a => (legendCalls_none hleg a).choose_spec⟩
  obtain ⟨lg, hlg⟩ := hex
  have hround : ∀ p ∈ ss.zipIdx, plotSeries true x o (axesOf o) p =
      .ok (roundCalls x o (axesOf o) (lg (p.2 % axesOf o)) p) := by
    intro p hp
    obtain ⟨p1, p2⟩ := mem_zipIdx_zero hp
    have hm : p.2 % 2 < min ss.length 2 := by
      have := Nat.mod_lt p.2 (show 0 < 2 by omega)
      have := Nat.mod_le p.2 2
      omega
    unfold plotSeries
    simp only [optItem_fits hl p1, optItem_fits hc p1, if_pos (hlen _ p2), ylabel_fits hc hy p1 hm, getLim_fits hlim hm,
      (hlg _).1]
    rfl
  refine ⟨_, by rw [plot1D_rounds h ht, plotRounds_ok _ hround], ?_, ?_, ?_⟩
  · rw [linesOf_append, linesOf_flatMap, show linesOf ((if o.tight then [.tight] else []) ++ (if o.title.truthy then [.title o.title] else [])) = [] from (endCalls_none o).1, List.append_nil, ← flatMap_single]
    congr 1
    funext p
    exact (roundCalls_read x o _ _ (hlg _).2 p).1
  · rw [ylabelsOf_append, ylabelsOf_flatMap, show ylabelsOf ((if o.tight then [.tight] else []) ++ (if o.title.truthy then [.title o.title] else [])) = [] from (endCalls_none o).2.1, List.append_nil, ← flatMap_zipIdx _ ss]
    congr 1
    funext p
    exact (roundCalls_read x o _ _ (hlg _).2 p).2.1
  · rw [ylimsOf_append, ylimsOf_flatMap, show ylimsOf ((if o.tight then [.tight] else []) ++ (if o.title.truthy then [.title o.title] else [])) = [] from (endCalls_none o).2.2, List.append_nil, ← flatMap_zipIdx _ ss]
    congr 1
    funext p
    exact (roundCalls_read x o _ _ (hlg _).2 p).2.2

/-! ## The other calls -/

theorem decorationsOf_append (a b : List DrawCall) : decorationsOf (a ++ b) = decorationsOf a ++ decorationsOf b := by
  simp [decorationsOf]

theorem truthy_iff (v : PVal) : v.truthy = true ↔ ¬ Absent v := by
  cases v <;> simp [PVal.truthy, Absent]

theorem given_eq {α : Type} (v : PVal) (c : α) : (if v.truthy then [c] else []) = if Absent v then [] else [c] := by
  by_cases h : Absent v
  · rw [if_pos h, if_neg (by rw [truthy_iff]; exact not_not_intro h)]
  · rw [if_neg h, if_pos ((truthy_iff v).2 h)]

theorem legendCalls_eq {a : Nat} {l : PLegend} {lg : List DrawCall} (h : legendCalls a l = .ok lg) :
    lg = legendOn a l := by
  match l, h with
  | .absent, h => cases h; rfl
  | .dict [], h => cases h; rfl
  | .dict (e :: d), h => cases h; rfl
  | .seq [], h => cases h; rfl
  | .seq (_ :: _), h => cases h

theorem ylabelCalls_decorations {old : Bool} {o : PlotOpts} {a i : Nat} {yl : List DrawCall}
    (h : ylabelCalls old o a i = .ok yl) : decorationsOf yl = [] := by
  unfold ylabelCalls at h
  split at h
  · split at h
    · cases h
    · split at h
      · cases h
      · cases h; rfl
  · cases h; rfl

theorem ylim_decorations (a : Nat) (l : List (Rat × Option Rat)) :
    decorationsOf (l.map (fun l => .ylim a l.1 l.2)) = [] := by
  induction l with
  | nil => rfl
  | cons p l ih => simpa [decorationsOf] using ih

theorem plotSeries_decorations {old : Bool} {x : List Rat} {o : PlotOpts} {axes : Nat} {p : List Rat × Nat}
    {cs : List DrawCall} (h : plotSeries old x o axes p = .ok cs) :
    decorationsOf cs = axisDecorations o (p.2 % axes) := by
  unfold plotSeries at h
  split at h
  · cases h
  · split at h
    · cases h
    · split at h
      · split at h
        · cases h
        · rename_i yl hyl
          split at h
          · cases h
          · rename_i lims hlims
            split at h
            · cases h
            · rename_i lg hlg
              cases h
              have h0 : ∀ a xs ys l c (r : List DrawCall), decorationsOf (.plot a xs ys l c :: r) = decorationsOf r := by
                intros; rfl
              have h1 : decorationsOf (if Absent o.xlabel then [] else [.xlabel (p.2 % axes) o.xlabel]) =
                  (if Absent o.xlabel then [] else [.xlabel (p.2 % axes) o.xlabel]) := by split <;> rfl
              have h3 : decorationsOf lg = lg := by
                rw [legendCalls_eq hlg]
                unfold legendOn
                split <;> rfl
              rw [h0, given_eq, decorationsOf_append, decorationsOf_append, decorationsOf_append, decorationsOf_append, h1, h3,
                ylabelCalls_decorations hyl, ylim_decorations, legendCalls_eq hlg, axisDecorations]
              cases o.xlim <;> rfl
      · cases h

theorem plotRounds_decorations {old : Bool} {x : List Rat} {o : PlotOpts} {axes : Nat} :
    ∀ (ps : List (List Rat × Nat)) (cs : List DrawCall), plotRounds old x o axes ps = .ok cs →
      decorationsOf cs = ps.flatMap (fun p => axisDecorations o (p.2 % axes))
  | [], cs, h => by cases h; rfl
  | p :: ps, cs, h => by
      simp only [plotRounds] at h
      split at h
      · cases h
      · rename_i cs1 h1
        split at h
        · cases h
        · rename_i cs2 h2
          cases h
          rw [decorationsOf_append, plotSeries_decorations h1, plotRounds_decorations ps cs2 h2, List.flatMap_cons]

theorem seriesOf_length {y : List PItem} {ss : List (List Rat)} (h : seriesOf y = .ok ss) :
    ss.length = seriesCount y := by
  match y, h with
  | [], h => cases h
  | .series s :: t, h =>
    simp only [seriesOf] at h
    cases h
    simp [seriesCount]
  | .num q :: t, h =>
    simp only [seriesOf] at h
    split at h
    · cases h; rfl
    · cases h

/-! ## Frames -/

theorem frameIndex_mod {n : Nat} (hn : 0 < n) : ∀ k, frameIndex n k = k % n := by
  intro k
  induction k with
  | zero => simp [frameIndex]
  | succ k ih =>
    rw [frameIndex, ih, nextFrame]
    have hlt := Nat.mod_lt k hn
    have hd := Nat.div_add_mod k n
    by_cases h : k % n + 1 = n
    · rw [if_pos h]
      have : k + 1 = n * (k / n + 1) := by rw [Nat.mul_add, Nat.mul_one]; omega
      rw [this, Nat.mul_mod_right]
    · rw [if_neg h]
      have e : (k % n + 1 + n * (k / n)) % n = k % n + 1 := by
        rw [Nat.add_mul_mod_self_left, Nat.mod_eq_of_lt (by omega)]
      rw [← e]
      congr 1
      omega

/-! ## Limits -/

theorem foldl_min_le : ∀ (l : List Rat) (a : Rat), l.foldl min a ≤ a ∧ ∀ x ∈ l, l.foldl min a ≤ x
  | [], a => ⟨Rat.le_refl, fun x h => by cases h⟩
  | b :: l, a => by
      obtain ⟨h1, h2⟩ := foldl_min_le l (min a b)
      rw [List.foldl_cons]
      have ha : min a b ≤ a := by grind
      have hb : min a b ≤ b := by grind
      refine ⟨Rat.le_trans h1 ha, ?_⟩
      intro x hx
      rcases List.mem_cons.1 hx with rfl | hx
      · exact Rat.le_trans h1 hb
      · exact h2 x hx

theorem le_foldl_max : ∀ (l : List Rat) (a : Rat), a ≤ l.foldl max a ∧ ∀ x ∈ l, x ≤ l.foldl max a
  | [], a => ⟨Rat.le_refl, fun x h => by cases h⟩
  | b :: l, a => by
      obtain ⟨h1, h2⟩ := le_foldl_max l (max a b)
      rw [List.foldl_cons]
      have ha : a ≤ max a b := by grind
      have hb : b ≤ max a b := by grind
      refine ⟨Rat.le_trans ha h1, ?_⟩
      intro x hx
      rcases List.mem_cons.1 hx with rfl | hx
      · exact Rat.le_trans hb h1
      · exact h2 x hx

theorem rat_foldl_min_mem : ∀ (l : List Rat) (a : Rat), l.foldl min a ∈ a :: l
  | [], a => List.mem_cons_self
  | b :: l, a => by
      rw [List.foldl_cons]
      have := rat_foldl_min_mem l (min a b)
      have hm : min a b = a ∨ min a b = b := by grind
      rcases List.mem_cons.1 this with h | h
      · rcases hm with hm | hm <;> rw [h, hm] <;> simp
      · exact List.mem_cons_of_mem _ (List.mem_cons_of_mem _ h)

theorem rat_foldl_max_mem : ∀ (l : List Rat) (a : Rat), l.foldl max a ∈ a :: l
  | [], a => List.mem_cons_self
  | b :: l, a => by
      rw [List.foldl_cons]
      have := rat_foldl_max_mem l (max a b)
      have hm : max a b = a ∨ max a b = b := by grind
      rcases List.mem_cons.1 this with h | h
      · rcases hm with hm | hm <;> rw [h, hm] <;> simp
      · exact List.mem_cons_of_mem _ (List.mem_cons_of_mem _ h)

end Verif
