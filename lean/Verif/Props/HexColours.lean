import Verif.Model.HexColours
import Verif.Props.Plot1D
import Verif.Props.Hexplot
/-! # Property C162: the colours of the hexagons -/

namespace Verif

/-! ## Lemmas -/

theorem flatMap_zipIdx_fst {V : Type} (g : Nat → Nat → V → Nat × Nat × V) (hg : ∀ a b v, (g a b v).2.2 = v) (grid : List (List V)) (k : Nat) :
    ((grid.zipIdx k).flatMap (fun p => p.1.zipIdx.map (fun q => g q.2 p.2 q.1))).map (fun t => t.2.2) = grid.flatten := by
  have row : ∀ (l : List V) (j b : Nat), ((l.zipIdx j).map (fun q => g q.2 b q.1)).map (fun t => t.2.2) = l := by
    intro l
    induction l with
    | nil => intro _ _; rfl
    | cons v l ih =>
      intro j b
      rw [List.zipIdx_cons, List.map_cons, List.map_cons, ih, hg]
  induction grid generalizing k with
  | nil => rfl
  | cons r grid ih =>
    rw [List.zipIdx_cons, List.flatMap_cons, List.map_append, ih, row, List.flatten_cons]

/-- The values are those of the grid, row by row. -/
theorem hexValues_eq (grid : List (List Rat)) : hexValues grid = grid.flatten :=
  flatMap_zipIdx_fst (fun a b v => (a, b, v)) (fun _ _ _ => rfl) grid 0

theorem flatten_reshape {V : Type} (rows cols : Nat) : ∀ (row : List V), row.length = rows * cols → (reshapeRow rows cols row).flatten = row := by
  induction rows with
  | zero =>
    intro row h
    have : row = [] := List.length_eq_zero_iff.1 (by omega)
    rw [this]; rfl
  | succ rows ih =>
    intro row h
    rw [Nat.succ_mul] at h
    have := ih (row.drop cols) (by rw [List.length_drop]; omega)
    unfold reshapeRow at this ⊢
    rw [List.range_succ_eq_map, List.map_cons, List.map_map, List.flatten_cons, Nat.zero_mul, List.drop_zero]
    have e : ((fun a => (row.drop (a * cols)).take cols) ∘ Nat.succ) = fun a => ((row.drop cols).drop (a * cols)).take cols := by
      funext a
      show (row.drop (Nat.succ a * cols)).take cols = _
      rw [List.drop_drop, Nat.succ_mul, Nat.add_comm]
    rw [e, this, List.take_append_drop]

theorem mapM_shade {lo hi : Rat} (h : lo ≤ hi) : ∀ l : List Rat,
    l.mapM (shade lo hi) = .ok (l.map (fun v => if lo = hi then 0 else (v - lo) / (hi - lo)))
  | [] => rfl
  | v :: l => by
    have e : shade lo hi v = .ok (if lo = hi then 0 else (v - lo) / (hi - lo)) := by
      unfold shade
      split
      · rfl
      · rw [if_neg (Rat.not_lt.2 h)]
    rw [List.mapM_cons, e, mapM_shade h l]
    rfl

theorem limits_default {vals : List Rat} (hne : vals ≠ []) : ∃ lo hi, smallest vals = .ok lo ∧ greatest vals = .ok hi ∧
    colourLimits vals none none = .ok (lo, hi) ∧ lo ∈ vals ∧ hi ∈ vals ∧ lo ≤ hi ∧ ∀ v ∈ vals, lo ≤ v ∧ v ≤ hi := by
  cases vals with
  | nil => exact absurd rfl hne
  | cons v vs =>
    have h1 := foldl_min_le vs v
    have h2 := le_foldl_max vs v
    refine ⟨_, _, rfl, rfl, rfl, rat_foldl_min_mem vs v, rat_foldl_max_mem vs v, Rat.le_trans h1.1 h2.1, ?_⟩
    intro x hx
    rcases List.mem_cons.1 hx with rfl | hx
    · exact ⟨h1.1, h2.1⟩
    · exact ⟨h1.2 x hx, h2.2 x hx⟩

theorem shade_lt {lo hi a b : Rat} (h : lo < hi) : (a - lo) / (hi - lo) < (b - lo) / (hi - lo) ↔ a < b := by
  have hd : 0 < hi - lo := by linarith
  rw [div_lt_div_iff_of_pos_right hd]
  constructor <;> intro h <;> linarith

theorem shade_between {lo hi a : Rat} (h : lo < hi) (h1 : lo ≤ a) (h2 : a ≤ hi) : 0 ≤ (a - lo) / (hi - lo) ∧ (a - lo) / (hi - lo) ≤ 1 := by
  have hd : 0 < hi - lo := by linarith
  exact ⟨div_nonneg (by linarith) hd.le, (div_le_one hd).2 (by linarith)⟩

/-! ## C162 -/

theorem hexColours_state (activities : List (List Rat)) (rows cols : Nat) (k : Int) (t : Nat) (hk : pyIndex activities.length k = some t)
    (hlen : ∀ row ∈ activities, row.length = rows * cols) (vmin vmax : Option Rat) : ∃ state, activities[t]? = some state ∧ state.length = rows * cols ∧
      hexColours activities (some (rows, cols)) k vmin vmax =
        match colourLimits state vmin vmax with
        | .error e => .error e
        | .ok (lo, hi) => state.mapM (shade lo hi) := by
  have ht := pyIndex_lt hk
  have hstate := List.getElem?_eq_getElem ht
  have hl := hlen activities[t] (List.getElem_mem ht)
  generalize activities[t] = state at *
  have hgrid : hexGrid activities (some (rows, cols)) k = .ok (reshapeRow rows cols state) := by
    have hall : activities.all (fun row => decide (row.length = rows * cols)) = true := by
      rw [List.all_eq_true]
      intro row hrow
      exact decide_eq_true (hlen row hrow)
    unfold hexGrid
    simp only [hall, if_true]
    unfold pyGet
    simp only [hk, hstate]
  refine ⟨state, hstate, hl, ?_⟩
  unfold hexColours
  rw [hgrid]
  simp only [hexValues_eq, flatten_reshape rows cols state hl]
  rfl

/-- C162 for `plot_hex_grid` without limits (`vmin` and `vmax` not given): the colours are between 0 and 1, a hexagon has a higher colour than
another if and only if its value is greater, and unless all values are equal the smallest value has colour 0 and the greatest colour 1.  Missing
from the full claim: `animate_hex`, for which it is false (`C162_ignored`, `C162_false`). -/
theorem C162_plot_partial (activities : List (List Rat)) (rows cols : Nat) (k : Int) (t : Nat) (hk : pyIndex activities.length k = some t)
    (hlen : ∀ row ∈ activities, row.length = rows * cols) (hne : 0 < rows * cols) :
    ∃ state cs, activities[t]? = some state ∧ hexColours activities (some (rows, cols)) k none none = .ok cs ∧ cs.length = rows * cols ∧
      (∀ (i : Nat) (v c : Rat), state[i]? = some v → cs[i]? = some c → 0 ≤ c ∧ c ≤ 1 ∧ ((∀ w ∈ state, v ≤ w) → c = 0) ∧
        ((∀ w ∈ state, w ≤ v) → (∃ w ∈ state, w ≠ v) → c = 1)) ∧
      ∀ (i j : Nat) (v w c d : Rat), state[i]? = some v → state[j]? = some w → cs[i]? = some c → cs[j]? = some d → (c < d ↔ v < w) := by
  obtain ⟨state, h1, h2, h3⟩ := hexColours_state activities rows cols k t hk hlen none none
  have hs : state ≠ [] := by
    intro he
    rw [he, List.length_nil] at h2
    omega
  obtain ⟨lo, hi, _, _, l1, l2, l3, l4, l5⟩ := limits_default hs
  rw [l1] at h3
  have h4 : hexColours activities (some (rows, cols)) k none none = .ok (state.map (fun v => if lo = hi then 0 else (v - lo) / (hi - lo))) :=
    h3.trans (mapM_shade l4 state)
  have get : ∀ (i : Nat) (v c : Rat), state[i]? = some v → (state.map (fun v => if lo = hi then 0 else (v - lo) / (hi - lo)))[i]? = some c →
      c = if lo = hi then 0 else (v - lo) / (hi - lo) := by
    intro i v c hv hc
    rw [List.getElem?_map, hv] at hc
    exact (Option.some.inj hc).symm
  refine ⟨state, _, h1, h4, by rw [List.length_map]; exact h2, ?_, ?_⟩
  · intro i v c hv hc
    have hb := l5 v (List.mem_of_getElem? hv)
    rw [get i v c hv hc]
    by_cases he : lo = hi
    · rw [if_pos he]
      refine ⟨le_refl _, zero_le_one, fun _ => rfl, ?_⟩
      rintro - ⟨w, hw, hwv⟩
      have := l5 w hw
      exact absurd (le_antisymm (by linarith) (by linarith)) hwv
    · rw [if_neg he]
      have hlt : lo < hi := lt_of_le_of_ne l4 he
      refine ⟨(shade_between hlt hb.1 hb.2).1, (shade_between hlt hb.1 hb.2).2, ?_, ?_⟩
      · intro hmin
        have : v = lo := le_antisymm (hmin lo l2) hb.1
        rw [this, sub_self, zero_div]
      · intro hmax _
        have : v = hi := le_antisymm hb.2 (hmax hi l3)
        rw [this]
        exact div_self (by linarith)
  · intro i j v w c d hv hw hc hd
    have hbv := l5 v (List.mem_of_getElem? hv)
    have hbw := l5 w (List.mem_of_getElem? hw)
    rw [get i v c hv hc, get j w d hw hd]
    by_cases he : lo = hi
    · rw [if_pos he, if_pos he]
      constructor
      · intro h; exact absurd h (lt_irrefl _)
      · intro h; linarith
    · rw [if_neg he, if_neg he]
      exact shade_lt (lt_of_le_of_ne l4 he)

/-- C162 for `plot_hex_grid` with limits `vmin < vmax`: the colour of a hexagon depends on its value and the limits only. -/
theorem C162_given (activities : List (List Rat)) (rows cols : Nat) (k : Int) (t : Nat) (hk : pyIndex activities.length k = some t)
    (hlen : ∀ row ∈ activities, row.length = rows * cols) (lo hi : Rat) (h : lo < hi) :
    ∃ state, activities[t]? = some state ∧
      hexColours activities (some (rows, cols)) k (some lo) (some hi) = .ok (state.map (fun v => (v - lo) / (hi - lo))) := by
  obtain ⟨state, h1, _, h3⟩ := hexColours_state activities rows cols k t hk hlen (some lo) (some hi)
  refine ⟨state, h1, ?_⟩
  have := h3.trans (mapM_shade h.le state)
  simp only [if_neg h.ne] at this
  exact this

theorem mapM_shade_error {lo hi : Rat} (h : hi < lo) (v : Rat) (l : List Rat) : (v :: l).mapM (shade lo hi) = .error .valueError := by
  have e : shade lo hi v = .error .valueError := by
    unfold shade
    rw [if_neg h.ne', if_pos h]
  rw [List.mapM_cons, e]
  rfl

/-- C162: with cells to draw, `plot_hex_grid` raises `ValueError` exactly if `vmin` is greater than `vmax`, where the smallest and the
greatest value stand in for a limit that is not given. -/
theorem C162_raises (activities : List (List Rat)) (rows cols : Nat) (k : Int) (t : Nat) (hk : pyIndex activities.length k = some t)
    (hlen : ∀ row ∈ activities, row.length = rows * cols) (hne : 0 < rows * cols) (vmin vmax : Option Rat) :
    ∃ state lo hi, activities[t]? = some state ∧ (vmin = some lo ∨ vmin = none ∧ lo ∈ state ∧ ∀ v ∈ state, lo ≤ v) ∧
      (vmax = some hi ∨ vmax = none ∧ hi ∈ state ∧ ∀ v ∈ state, v ≤ hi) ∧
      (hi < lo → hexColours activities (some (rows, cols)) k vmin vmax = .error .valueError) ∧
      (lo ≤ hi → ∃ cs, hexColours activities (some (rows, cols)) k vmin vmax = .ok cs) := by
  obtain ⟨state, h1, h2, h3⟩ := hexColours_state activities rows cols k t hk hlen vmin vmax
  have hs : state ≠ [] := by
    intro he
    rw [he, List.length_nil] at h2
    omega
  obtain ⟨lo0, hi0, n1, n2, _, l2, l3, _, l5⟩ := limits_default hs
  have hcl : ∃ lo hi, colourLimits state vmin vmax = .ok (lo, hi) ∧ (vmin = some lo ∨ vmin = none ∧ lo ∈ state ∧ ∀ v ∈ state, lo ≤ v) ∧
      (vmax = some hi ∨ vmax = none ∧ hi ∈ state ∧ ∀ v ∈ state, v ≤ hi) := by
    unfold colourLimits
    cases vmin <;> cases vmax <;> simp only [n1, n2]
    · exact ⟨_, _, rfl, Or.inr ⟨trivial, l2, fun v hv => (l5 v hv).1⟩, Or.inr ⟨trivial, l3, fun v hv => (l5 v hv).2⟩⟩
    · exact ⟨_, _, rfl, Or.inr ⟨trivial, l2, fun v hv => (l5 v hv).1⟩, Or.inl rfl⟩
    · exact ⟨_, _, rfl, Or.inl rfl, Or.inr ⟨trivial, l3, fun v hv => (l5 v hv).2⟩⟩
    · exact ⟨_, _, rfl, Or.inl rfl, Or.inl rfl⟩
  obtain ⟨lo, hi, c1, c2, c3⟩ := hcl
  rw [c1] at h3
  refine ⟨state, lo, hi, h1, c2, c3, ?_, fun hle => ⟨_, h3.trans (mapM_shade hle state)⟩⟩
  intro hlt
  obtain ⟨v, l, rfl⟩ := List.exists_cons_of_ne_nil hs
  exact h3.trans (mapM_shade_error hlt v l)

theorem hexAnimation_state (activities : List (List Rat)) (rows cols : Nat) (hlen : ∀ row ∈ activities, row.length = rows * cols)
    (ha : activities ≠ []) (hne : 0 < rows * cols) (vmin vmax : Option Rat) (first k : Nat) :
    ∃ scale state lo hi, activities[first % activities.length]? = some scale ∧ activities[k % activities.length]? = some state ∧
      lo ∈ scale ∧ hi ∈ scale ∧ (∀ v ∈ scale, lo ≤ v ∧ v ≤ hi) ∧
      hexAnimation activities rows cols vmin vmax first k = .ok (state.map (fun v => if lo = hi then 0 else (v - lo) / (hi - lo))) := by
  have hpos : 0 < activities.length := List.length_pos_iff.2 ha
  obtain ⟨b1, f1⟩ := C123_frames activities ha first
  obtain ⟨b2, f2⟩ := C123_frames activities ha k
  have hl1 := hlen _ (List.getElem_mem b1)
  have hl2 := hlen _ (List.getElem_mem b2)
  have hne1 : activities[first % activities.length] ≠ [] := by
    intro he
    rw [he, List.length_nil] at hl1
    omega
  obtain ⟨lo, hi, m1, m2, _, l2, l3, l4, l5⟩ := limits_default hne1
  refine ⟨_, _, lo, hi, List.getElem?_eq_getElem b1, List.getElem?_eq_getElem b2, l2, l3, l5, ?_⟩
  have hall : activities.all (fun row => decide (row.length = rows * cols)) = true := by
    rw [List.all_eq_true]
    intro row hrow
    exact decide_eq_true (hlen row hrow)
  have hget : pyGet activities 0 = .ok activities[0] := pyGet_natCast activities hpos
  have hl0 := hlen _ (List.getElem_mem hpos)
  have hcl : ∃ p, colourLimits activities[0] vmin vmax = .ok p := by
    have hne0 : activities[0] ≠ [] := by
      intro he
      rw [he, List.length_nil] at hl0
      omega
    obtain ⟨lo0, hi0, n1, n2, _⟩ := limits_default hne0
    unfold colourLimits
    cases vmin <;> cases vmax <;> simp only [n1, n2] <;> exact ⟨_, rfl⟩
  obtain ⟨p, hp⟩ := hcl
  unfold hexAnimation
  rw [if_pos hall, hget]
  simp only [hexValues_eq, flatten_reshape rows cols _ hl0, hp, f1, f2, flatten_reshape rows cols _ hl1, flatten_reshape rows cols _ hl2, m1, m2]
  exact mapM_shade l4 _

/-- C162 for `animate_hex`: call number `k` of `update` shows state `k mod n`, with colours that are scaled to the smallest and the greatest
value of the state that was drawn first, and only to those.  Values beyond them have colours below 0 or above 1. -/
theorem C162_animation (activities : List (List Rat)) (rows cols : Nat) (hlen : ∀ row ∈ activities, row.length = rows * cols)
    (ha : activities ≠ []) (hne : 0 < rows * cols) (vmin vmax : Option Rat) (first k : Nat) :
    ∃ scale state, activities[first % activities.length]? = some scale ∧ activities[k % activities.length]? = some state ∧
      ((∀ v ∈ scale, ∀ w ∈ scale, v = w) → hexAnimation activities rows cols vmin vmax first k = .ok (state.map (fun _ => 0))) ∧
      ∀ lo ∈ scale, ∀ hi ∈ scale, (∀ v ∈ scale, lo ≤ v ∧ v ≤ hi) → lo < hi →
        hexAnimation activities rows cols vmin vmax first k = .ok (state.map (fun v => (v - lo) / (hi - lo))) := by
  obtain ⟨scale, state, lo, hi, h1, h2, h3, h4, h5, h6⟩ := hexAnimation_state activities rows cols hlen ha hne vmin vmax first k
  refine ⟨scale, state, h1, h2, ?_, ?_⟩
  · intro hall
    rw [h6]
    simp only [if_pos (hall lo h3 hi h4)]
  · intro lo' hlo' hi' hhi' hb hlt
    have e1 : lo' = lo := le_antisymm (hb lo h3).1 (h5 lo' hlo').1
    have e2 : hi' = hi := le_antisymm (h5 hi' hhi').2 (hb hi h4).2
    subst e1; subst e2
    rw [h6]
    simp only [if_neg hlt.ne]

/-- C162: `animate_hex` takes no notice of `vmin` and `vmax`. -/
theorem C162_ignored (activities : List (List Rat)) (rows cols : Nat) (hlen : ∀ row ∈ activities, row.length = rows * cols)
    (ha : activities ≠ []) (hne : 0 < rows * cols) (vmin vmax vmin' vmax' : Option Rat) (first k : Nat) :
    hexAnimation activities rows cols vmin vmax first k = hexAnimation activities rows cols vmin' vmax' first k := by
  obtain ⟨scale, state, lo, hi, h1, h2, h3, h4, h5, h6⟩ := hexAnimation_state activities rows cols hlen ha hne vmin vmax first k
  obtain ⟨scale', state', lo', hi', h1', h2', h3', h4', h5', h6'⟩ := hexAnimation_state activities rows cols hlen ha hne vmin' vmax' first k
  rw [h1] at h1'
  rw [h2] at h2'
  cases h1'
  cases h2'
  have e1 : lo' = lo := le_antisymm (h5' lo h3).1 (h5 lo' h3').1
  have e2 : hi' = hi := le_antisymm (h5 hi' h4').2 (h5' hi h4).2
  rw [h6, h6', e1, e2]

/-- C162: a grid without cells can be animated exactly if both limits are given. -/
theorem C162_empty (activities : List (List Rat)) (rows cols : Nat) (hlen : ∀ row ∈ activities, row.length = rows * cols)
    (ha : activities ≠ []) (h0 : rows * cols = 0) (vmin vmax : Option Rat) (first k : Nat) :
    hexAnimation activities rows cols vmin vmax first k = if vmin.isSome ∧ vmax.isSome then .ok [] else .error .valueError := by
  have hpos : 0 < activities.length := List.length_pos_iff.2 ha
  obtain ⟨b1, f1⟩ := C123_frames activities ha first
  obtain ⟨b2, f2⟩ := C123_frames activities ha k
  have hl1 := hlen _ (List.getElem_mem b1)
  have hl2 := hlen _ (List.getElem_mem b2)
  have hl0 := hlen _ (List.getElem_mem hpos)
  have nil : ∀ l : List Rat, l.length = rows * cols → l = [] := fun l hl => List.length_eq_zero_iff.1 (by omega)
  have hall : activities.all (fun row => decide (row.length = rows * cols)) = true := by
    rw [List.all_eq_true]
    intro row hrow
    exact decide_eq_true (hlen row hrow)
  have hget : pyGet activities 0 = .ok activities[0] := pyGet_natCast activities hpos
  unfold hexAnimation
  rw [if_pos hall, hget]
  simp only [hexValues_eq, flatten_reshape rows cols _ hl0, f1, f2, flatten_reshape rows cols _ hl1, flatten_reshape rows cols _ hl2]
  rw [nil _ hl0, nil _ hl1]
  cases vmin <;> cases vmax <;> rfl

example : hexAnimation [[], []] 0 3 (some 0) (some 1) 0 1 = .ok [] := C162_empty [[], []] 0 3 (by decide) (by decide) (by decide) (some 0) (some 1) 0 1

/-- C162: so the claim is false for `animate_hex`: with limits 0 and 10, value 5 is in the middle for `plot_hex_grid`, but beyond the end of the
colour map in an animation that begins with the values 0 and 1. -/
theorem C162_false : hexColours [[0, 5], [0, 1]] (some (1, 2)) 0 (some 0) (some 10) = .ok [0, 1 / 2] ∧
    hexAnimation [[0, 5], [0, 1]] 1 2 (some 0) (some 10) 1 2 = .ok [0, 5] := by
  decide +kernel

example : hexColours [[0, 5], [3, 1]] (some (1, 2)) (-1) none none = .ok [1, 0] ∧ hexColours [[0, 5], [3, 1]] (some (1, 2)) 0 none none = .ok [0, 1] ∧
    hexColours [[0, 5, 2, 3]] (some (2, 2)) 0 (some 6) none = .error .valueError ∧ hexColours [[4, 4]] (some (2, 1)) 0 none none = .ok [0, 0] := by
  decide +kernel

/-- An animation that begins with a constant state stays in one colour. -/
example : (List.range 4).map (hexAnimation [[0, 5], [0, 0], [7, 1]] 1 2 (some 0) (some 10) 1) = [.ok [0, 0], .ok [0, 0], .ok [0, 0], .ok [0, 0]] := by
  decide +kernel

end Verif
