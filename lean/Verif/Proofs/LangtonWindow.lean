import Verif.Props.Ctrbl
/-! # Computing Langton's loop in a window

A finite window with an empty border, a fast copy of the rule table, and the states of the window computed by the kernel. -/

namespace Verif

/-- Check of every item with its index. -/
def allIdx {α : Type} (l : List α) (f : Nat → α → Bool) : Bool := l.zipIdx.all (fun p => f p.2 p.1)

theorem allIdx_get {α : Type} {l : List α} {f : Nat → α → Bool} (h : allIdx l f = true) {n : Nat} {x : α}
    (hx : l[n]? = some x) : f n x = true := by
  have := List.all_eq_true.1 h (x, n) (List.mem_zipIdx_iff_getElem?.2 hx)
  exact this

/-- A table: centre, top, right, bottom, left; the leaves hold the image, the number of a rule and the number of turns. -/
abbrev Trie := List (List (List (List (List (Nat × Nat × Nat)))))

/-- The image in the table (8 stands for a missing entry). -/
def look (T : Trie) (c t r b l : Nat) : Option Nat :=
  match T[c]? with
  | none => none
  | some T1 => match T1[t]? with
    | none => none
    | some T2 => match T2[r]? with
      | none => none
      | some T3 => match T3[b]? with
        | none => none
        | some T4 => match T4[l]? with
          | none => none
          | some (v, _, _) => bif Nat.beq v 8 then none else some v

/-- Every leaf is justified by a rule. -/
def trieOk (rules : List (List Nat × Nat)) (T : Trie) : Bool :=
  allIdx T fun c T1 => allIdx T1 fun t T2 => allIdx T2 fun r T3 => allIdx T3 fun b T4 => allIdx T4 fun l x =>
    Nat.beq x.1 8 || (match rules[x.2.1]? with
      | none => false
      | some p => Nat.beq p.2 x.1 && (match (turns p.1)[x.2.2]? with
        | none => false
        | some k => decide (k = [c, t, r, b, l])))

theorem look_ok {rules : List (List Nat × Nat)} {T : Trie} (h : trieOk rules T = true) {c t r b l v : Nat}
    (hl : look T c t r b l = some v) : ∃ p ∈ rules, [c, t, r, b, l] ∈ turns p.1 ∧ p.2 = v := by
  unfold look at hl
  cases h1 : T[c]? with
  | none => simp only [h1] at hl; cases hl
  | some T1 =>
  simp only [h1] at hl
  cases h2 : T1[t]? with
  | none => simp only [h2] at hl; cases hl
  | some T2 =>
  simp only [h2] at hl
  cases h3 : T2[r]? with
  | none => simp only [h3] at hl; cases hl
  | some T3 =>
  simp only [h3] at hl
  cases h4 : T3[b]? with
  | none => simp only [h4] at hl; cases hl
  | some T4 =>
  simp only [h4] at hl
  cases h5 : T4[l]? with
  | none => simp only [h5] at hl; cases hl
  | some x =>
  simp only [h5] at hl
  have hx := allIdx_get (allIdx_get (allIdx_get (allIdx_get (allIdx_get h h1) h2) h3) h4) h5
  obtain ⟨v', i, j⟩ := x
  simp only at hl hx
  cases h8 : Nat.beq v' 8 with
  | true => rw [h8] at hl; cases hl
  | false =>
    rw [h8] at hl hx
    cases hl
    rw [Bool.false_or] at hx
    cases hi : rules[i]? with
    | none => simp only [hi] at hx; cases hx
    | some p =>
      simp only [hi, Bool.and_eq_true] at hx
      obtain ⟨hx1, hx2⟩ := hx
      cases hj : (turns p.1)[j]? with
      | none => simp only [hj] at hx2; cases hx2
      | some k =>
        simp only [hj, decide_eq_true_eq] at hx2
        refine ⟨p, List.mem_of_getElem? hi, ?_, Nat.eq_of_beq_eq_true hx1⟩
        rw [← hx2]
        exact List.mem_of_getElem? hj

/-- One row of the window; `p` is the cell to the left. -/
def stepRow (T : Trie) (p : Nat) (up row down : List Nat) : Option (List Nat) :=
  match row, up, down with
  | c :: cs, u :: us, d :: ds => match look T c u (cs.headD 0) d p with
    | none => none
    | some v => match stepRow T c us cs ds with
      | none => none
      | some vs => some (v :: vs)
  | _, _, _ => some []

theorem stepRow_spec {T : Trie} (row : List Nat) : ∀ (p : Nat) (up down out : List Nat), up.length = row.length →
    down.length = row.length → stepRow T p up row down = some out → out.length = row.length ∧
      ∀ j, j < row.length → look T (row.getD j 0) (up.getD j 0) (row.getD (j + 1) 0) (down.getD j 0)
        (if j = 0 then p else row.getD (j - 1) 0) = some (out.getD j 0) := by
  induction row with
  | nil =>
    intro p up down out _ _ h
    simp only [stepRow] at h
    cases h
    exact ⟨rfl, fun j hj => absurd hj (by simp)⟩
  | cons c cs ih =>
    intro p up down out hu hd h
    match up, hu with
    | u :: us, hu =>
    match down, hd with
    | d :: ds, hd =>
    simp only [stepRow] at h
    cases h1 : look T c u (cs.headD 0) d p with
    | none => simp only [h1] at h; cases h
    | some v =>
      simp only [h1] at h
      cases h2 : stepRow T c us cs ds with
      | none => simp only [h2] at h; cases h
      | some vs =>
        simp only [h2] at h
        cases h
        obtain ⟨a1, a2⟩ := ih c us ds vs (by simpa using hu) (by simpa using hd) h2
        refine ⟨by simp [a1], ?_⟩
        intro j hj
        cases j with
        | zero =>
          have e : (c :: cs).getD (0 + 1) 0 = cs.headD 0 := by cases cs <;> rfl
          rw [e]
          simpa using h1
        | succ j =>
          have := a2 j (by simpa using hj)
          simp only [List.getD_cons_succ, Nat.add_one_ne_zero, if_false, Nat.add_sub_cancel]
          rw [← this]
          congr 1
          cases j with
          | zero => rfl
          | succ j => simp

/-- All rows of the window; `up` is the row above, `zero` the row below the last one. -/
def stepRows (T : Trie) (zero up : List Nat) : List (List Nat) → Option (List (List Nat))
  | [] => some []
  | row :: rows => match stepRow T 0 up row (rows.headD zero) with
    | none => none
    | some r => match stepRows T zero row rows with
      | none => none
      | some rs => some (r :: rs)

theorem stepRows_spec {T : Trie} {zero : List Nat} (rows : List (List Nat)) : ∀ (up : List Nat) (out : List (List Nat)),
    up.length = zero.length → (∀ r ∈ rows, r.length = zero.length) → stepRows T zero up rows = some out →
      out.length = rows.length ∧ (∀ r ∈ out, r.length = zero.length) ∧
      ∀ i, i < rows.length → stepRow T 0 (if i = 0 then up else rows.getD (i - 1) zero) (rows.getD i zero)
        (rows.getD (i + 1) zero) = some (out.getD i zero) := by
  induction rows with
  | nil =>
    intro up out _ _ h
    simp only [stepRows] at h
    cases h
    exact ⟨rfl, by simp, fun i hi => absurd hi (by simp)⟩
  | cons row rows ih =>
    intro up out hu hr h
    simp only [stepRows] at h
    cases h1 : stepRow T 0 up row (rows.headD zero) with
    | none => simp only [h1] at h; cases h
    | some r =>
      simp only [h1] at h
      cases h2 : stepRows T zero row rows with
      | none => simp only [h2] at h; cases h
      | some rs =>
        simp only [h2] at h
        cases h
        have hrow : row.length = zero.length := hr row (by simp)
        obtain ⟨a1, a2, a3⟩ := ih row rs hrow (fun r hr' => hr r (by simp [hr'])) h2
        have hdown : (rows.headD zero).length = row.length := by
          rw [hrow]
          cases rows with
          | nil => rfl
          | cons x xs => exact hr x (by simp)
        have hlen := (stepRow_spec row 0 up _ r (by rw [hu, hrow]) hdown h1).1
        refine ⟨by simp [a1], ?_, ?_⟩
        · intro r' hr'
          rcases List.mem_cons.1 hr' with rfl | hr'
          · rw [hlen, hrow]
          · exact a2 r' hr'
        · intro i hi
          cases i with
          | zero =>
            have e : (row :: rows).getD (0 + 1) zero = rows.headD zero := by cases rows <;> rfl
            rw [e]
            simpa using h1
          | succ i =>
            have := a3 i (by simpa using hi)
            simp only [List.getD_cons_succ, Nat.add_one_ne_zero, if_false, Nat.add_sub_cancel]
            rw [← this]
            congr 1
            cases i with
            | zero => rfl
            | succ i => simp

/-- A cell of the window, 0 outside. -/
def winAt (W : List (List Nat)) (i j : Nat) : Nat := (W.getD i []).getD j 0

/-- The window has `h` rows and `w` columns and its border is empty. -/
def bordered (h w : Nat) (W : List (List Nat)) : Bool :=
  Nat.beq W.length h && W.all (fun r => Nat.beq r.length w && Nat.beq (r.getD 0 0) 0 && Nat.beq (r.getD (w - 1) 0) 0) &&
    (W.getD 0 []).all (fun x => Nat.beq x 0) && (W.getD (h - 1) []).all (fun x => Nat.beq x 0)

/-- `n` steps of the window, checking the border before every step and at the end. -/
def runWin (T : Trie) (h w : Nat) (zero : List Nat) : Nat → List (List Nat) → Option (List (List Nat))
  | 0, W => bif bordered h w W then some W else none
  | n + 1, W => bif bordered h w W then
      match stepRows T zero zero W with
      | none => none
      | some W' => runWin T h w zero n W'
    else none

theorem runWin_seq {T : Trie} {h w : Nat} {zero : List Nat} (n : Nat) : ∀ (W W' : List (List Nat)),
    runWin T h w zero n W = some W' → ∃ s : Nat → List (List Nat), s 0 = W ∧ s n = W' ∧
      (∀ t, t ≤ n → bordered h w (s t) = true) ∧ ∀ t, t < n → stepRows T zero zero (s t) = some (s (t + 1)) := by
  induction n with
  | zero =>
    intro W W' hr
    simp only [runWin] at hr
    cases hb : bordered h w W with
    | false => rw [hb] at hr; cases hr
    | true =>
      rw [hb] at hr
      cases hr
      exact ⟨fun _ => W, rfl, rfl, fun _ _ => hb, fun t ht => absurd ht (by omega)⟩
  | succ n ih =>
    intro W W' hr
    simp only [runWin] at hr
    cases hb : bordered h w W with
    | false => rw [hb] at hr; cases hr
    | true =>
      rw [hb] at hr
      simp only [cond_true] at hr
      cases hs : stepRows T zero zero W with
      | none => simp only [hs] at hr; cases hr
      | some W1 =>
        simp only [hs] at hr
        obtain ⟨s, s1, s2, s3, s4⟩ := ih W1 W' hr
        refine ⟨fun t => match t with | 0 => W | t + 1 => s t, rfl, s2, ?_, ?_⟩
        · intro t ht
          cases t with
          | zero => exact hb
          | succ t => exact s3 t (by omega)
        · intro t ht
          cases t with
          | zero => simp only [s1]; exact hs
          | succ t => exact s4 t (by omega)

theorem getD_row_zero {W : List (List Nat)} {w : Nat} {i j : Nat} :
    (W.getD i (List.replicate w 0)).getD j 0 = winAt W i j := by
  unfold winAt
  simp only [List.getD_eq_getElem?_getD]
  cases W[i]? with
  | some r => rfl
  | none =>
    rcases Nat.lt_or_ge j w with hj | hj <;> simp [hj]

theorem all_zero_getD {l : List Nat} (h : l.all (fun x => Nat.beq x 0) = true) (j : Nat) : l.getD j 0 = 0 := by
  rw [List.getD_eq_getElem?_getD]
  cases hj : l[j]? with
  | none => rfl
  | some x => exact Nat.eq_of_beq_eq_true (List.all_eq_true.1 h x (List.mem_of_getElem? hj))

theorem bordered_spec {h w : Nat} {W : List (List Nat)} (hb : bordered h w W = true) :
    W.length = h ∧ (∀ r ∈ W, r.length = w) ∧
      ∀ i j, (i = 0 ∨ h ≤ i + 1 ∨ j = 0 ∨ w ≤ j + 1) → winAt W i j = 0 := by
  simp only [bordered, Bool.and_eq_true, List.all_eq_true (l := W)] at hb
  obtain ⟨⟨⟨h1, h2⟩, h3⟩, h4⟩ := hb
  replace h1 := Nat.eq_of_beq_eq_true h1
  have hr : ∀ r ∈ W, r.length = w ∧ r.getD 0 0 = 0 ∧ r.getD (w - 1) 0 = 0 := by
    intro r hr
    have := h2 r hr
    exact ⟨Nat.eq_of_beq_eq_true this.1.1, Nat.eq_of_beq_eq_true this.1.2, Nat.eq_of_beq_eq_true this.2⟩
  refine ⟨h1, fun r h => (hr r h).1, ?_⟩
  intro i j hij
  unfold winAt
  rcases Nat.lt_or_ge i W.length with hi | hi
  · have hg : W.getD i [] = W[i] := by rw [List.getD_eq_getElem?_getD, List.getElem?_eq_getElem hi]; rfl
    have hm := hr _ (List.getElem_mem hi)
    rcases hij with rfl | hij | rfl | hij
    · exact all_zero_getD h3 j
    · have : i = h - 1 := by omega
      rw [this]
      exact all_zero_getD h4 j
    · rw [hg]; exact hm.2.1
    · rw [hg]
      rcases Nat.lt_or_ge j w with hj | hj
      · have : j = w - 1 := by omega
        rw [this]; exact hm.2.2
      · rw [List.getD_eq_getElem?_getD, List.getElem?_eq_none_iff.2 (by omega)]; rfl
  · simp only [List.getD_eq_getElem?_getD, List.getElem?_eq_none_iff.2 hi]; rfl

/-- A step of the window, cell by cell, inside and outside. -/
theorem window_step {T : Trie} {h w : Nat} {W W' : List (List Nat)} (hb : bordered h w W = true)
    (hb' : bordered h w W' = true) (hs : stepRows T (List.replicate w 0) (List.replicate w 0) W = some W')
    (image : List Nat → Option Nat) (hi : ∀ c t r b l v, look T c t r b l = some v → image [c, t, r, b, l] = some v)
    (h0 : image [0, 0, 0, 0, 0] = some 0) (i j : Nat) :
    image [winAt W i j, if i = 0 then 0 else winAt W (i - 1) j, winAt W i (j + 1), winAt W (i + 1) j,
      if j = 0 then 0 else winAt W i (j - 1)] = some (winAt W' i j) := by
  obtain ⟨a1, a2, a3⟩ := bordered_spec hb
  obtain ⟨b1, b2, b3⟩ := bordered_spec hb'
  by_cases hin : i < h ∧ j < w
  · have hrl : ∀ k, (W.getD k (List.replicate w 0)).length = w := by
      intro k
      rw [List.getD_eq_getElem?_getD]
      cases hk : W[k]? with
      | none => simp
      | some r => exact a2 r (List.mem_of_getElem? hk)
    obtain ⟨_, _, c3⟩ := stepRows_spec W (List.replicate w 0) W' rfl (by simpa using a2) hs
    have d := c3 i (by omega)
    have hupl : (if i = 0 then List.replicate w 0 else W.getD (i - 1) (List.replicate w 0)).length = w := by
      split
      · simp
      · exact hrl _
    obtain ⟨e1, e2⟩ := stepRow_spec _ 0 _ _ _ (by rw [hrl]; exact hupl) (by rw [hrl, hrl]) d
    have e := e2 j (by rw [hrl]; omega)
    simp only [getD_row_zero] at e
    have hup : (if i = 0 then List.replicate w 0 else W.getD (i - 1) (List.replicate w 0)).getD j 0 =
        if i = 0 then 0 else winAt W (i - 1) j := by
      split
      · simp [List.getD_eq_getElem?_getD, hin.2]
      · exact getD_row_zero
    rw [hup] at e
    exact hi _ _ _ _ _ _ e
  · have z1 : winAt W i j = 0 := a3 _ _ (by omega)
    have z2 : (if i = 0 then 0 else winAt W (i - 1) j) = 0 := by split; rfl; exact a3 _ _ (by omega)
    have z3 : winAt W i (j + 1) = 0 := a3 _ _ (by omega)
    have z4 : winAt W (i + 1) j = 0 := a3 _ _ (by omega)
    have z5 : (if j = 0 then 0 else winAt W i (j - 1)) = 0 := by split; rfl; exact a3 _ _ (by omega)
    have z6 : winAt W' i j = 0 := b3 _ _ (by omega)
    rw [z1, z2, z3, z4, z5, z6, h0]

theorem mod_succ' {n a o : Nat} (hn : 0 < n) : ((a + 1) % n + o) % n = if (a + o) % n + 1 = n then 0 else (a + o) % n + 1 := by
  have h1 : ((a + 1) % n + o) % n = ((a + o) % n + 1) % n := by
    rw [Nat.mod_add_mod, Nat.mod_add_mod]; congr 1; omega
  rw [h1]
  have := Nat.mod_lt (a + o) hn
  split
  · rename_i h; rw [h, Nat.mod_self]
  · exact Nat.mod_eq_of_lt (by omega)

theorem mod_pred' {n a o : Nat} (hn : 0 < n) : ((a + n - 1) % n + o) % n = if (a + o) % n = 0 then n - 1 else (a + o) % n - 1 := by
  have h1 : ((a + n - 1) % n + o) % n = ((a + o) % n + (n - 1)) % n := by
    rw [Nat.mod_add_mod, Nat.mod_add_mod]; congr 1; omega
  rw [h1]
  have := Nat.mod_lt (a + o) hn
  split
  · rename_i h; rw [h, Nat.zero_add]; exact Nat.mod_eq_of_lt (by omega)
  · have : (a + o) % n + (n - 1) = ((a + o) % n - 1) + n := by omega
    rw [this, Nat.add_mod_right]; exact Nat.mod_eq_of_lt (by omega)

/-- The window placed anywhere on a torus that is large enough is a run of the automaton. -/
theorem window_torus {T : Trie} {h w n : Nat} {s : Nat → List (List Nat)} (hb : ∀ t, t ≤ n → bordered h w (s t) = true)
    (hs : ∀ t, t < n → stepRows T (List.replicate w 0) (List.replicate w 0) (s t) = some (s (t + 1)))
    (image : List Nat → Option Nat) (hi : ∀ c t r b l v, look T c t r b l = some v → image [c, t, r, b, l] = some v)
    (h0 : image [0, 0, 0, 0, 0] = some 0) {rows cols oa ob : Nat} (hrows : h ≤ rows) (hcols : w ≤ cols) :
    CtrblRun rows cols image (n + 1) (fun t a b => winAt (s t) ((a + oa) % rows) ((b + ob) % cols)) := by
  intro t ht a b ha hb'
  have hr : 0 < rows := by omega
  have hc : 0 < cols := by omega
  have hbt := hb t (by omega)
  obtain ⟨-, -, z⟩ := bordered_spec hbt
  have key := window_step hbt (hb (t + 1) (by omega)) (hs t (by omega)) image hi h0 ((a + oa) % rows) ((b + ob) % cols)
  rw [← key]
  simp only [cross, List.map_cons, List.map_nil]
  have hra := Nat.mod_lt (a + oa) hr
  have hcb := Nat.mod_lt (b + ob) hc
  have e1 : winAt (s t) (((a + rows - 1) % rows + oa) % rows) ((b + ob) % cols) =
      if (a + oa) % rows = 0 then 0 else winAt (s t) ((a + oa) % rows - 1) ((b + ob) % cols) := by
    rw [mod_pred' hr]
    split
    · exact z _ _ (by omega)
    · rfl
  have e2 : winAt (s t) ((a + oa) % rows) (((b + 1) % cols + ob) % cols) = winAt (s t) ((a + oa) % rows) ((b + ob) % cols + 1) := by
    rw [mod_succ' hc]
    split
    · rw [z _ 0 (by omega), z _ _ (by omega)]
    · rfl
  have e3 : winAt (s t) (((a + 1) % rows + oa) % rows) ((b + ob) % cols) = winAt (s t) ((a + oa) % rows + 1) ((b + ob) % cols) := by
    rw [mod_succ' hr]
    split
    · rw [z 0 _ (by omega), z _ _ (by omega)]
    · rfl
  have e4 : winAt (s t) ((a + oa) % rows) (((b + cols - 1) % cols + ob) % cols) =
      if (b + ob) % cols = 0 then 0 else winAt (s t) ((a + oa) % rows) ((b + ob) % cols - 1) := by
    rw [mod_pred' hc]
    split
    · exact z _ _ (by omega)
    · rfl
  rw [e1, e2, e3, e4]

/-- The rule table of Langton's loop, with the numbers of the rules that justify the entries. -/
def langtonTrie : Trie :=
  [[[[[(0,0,0),(2,1,0),(0,2,0),(0,3,0),(8,0,0),(0,4,0),(3,5,0),(1,6,0)], [(2,1,3),(2,7,0),(2,8,0),(2,9,0)],
  [(0,2,3),(2,10,0),(0,11,0),(0,12,0),(8,0,0),(8,0,0),(2,13,0),(2,14,0)], [(0,3,3),(8,0,0),(0,15,0)], [],
  [(0,4,3),(8,0,0),(5,16,0)], [(3,5,3),(8,0,0),(2,17,0)], [(1,6,3),(8,0,0),(2,18,0)]], [[(2,1,2),(8,0,0),(2,19,0)],
  [(2,7,3),(8,0,0),(0,20,0)], [(2,8,3)], [(2,9,3)]], [[(0,2,2),(2,19,2),(0,21,0),(0,22,0),(8,0,0),(0,23,0)],
  [(2,10,3),(8,0,0),(5,24,0)], [(0,11,3),(8,0,0),(0,25,0)], [(0,12,3),(8,0,0),(2,26,0)], [], [], [(2,13,3)],
  [(2,14,3)]], [[(0,3,2),(8,0,0),(0,22,2)], [], [(0,15,3)]], [], [[(0,4,2),(8,0,0),(0,23,2)], [],
  [(5,16,3),(8,0,0),(2,27,0)]], [[(3,5,2)], [], [(2,17,3)]], [[(1,6,2)], [], [(2,18,3)]]], [[[(2,1,1),(2,7,1),(2,10,1)],
  [], [(2,19,3)]], [[(2,7,2)], [], [(0,20,3)]], [[(2,8,2),(0,20,2),(5,24,2)], [], [], [(8,0,0),(8,0,0),(1,28,0)],
  [(8,0,0),(8,0,0),(1,29,0)], [(8,0,0),(8,0,0),(5,30,0)], [(8,0,0),(8,0,0),(1,31,0)],
  [(8,0,0),(8,0,0),(1,32,0),(8,0,0),(8,0,0),(1,33,0)]], [[(2,9,2)]], [[], [], [(8,0,0),(8,0,0),(1,34,0)],
  [(8,0,0),(8,0,0),(1,35,0)], [(8,0,0),(8,0,0),(1,36,0)], [], [], [(8,0,0),(8,0,0),(1,37,0)]], [], [[], [],
  [(8,0,0),(8,0,0),(8,0,0),(8,0,0),(8,0,0),(1,38,0)]], [[], [], [(8,0,0),(8,0,0),(1,39,0),(8,0,0),(8,0,0),(5,40,0)], [],
  [], [(8,0,0),(8,0,0),(1,41,0)], [(8,0,0),(8,0,0),(1,42,0)], [(8,0,0),(8,0,0),(1,43,0)]]],
  [[[(0,2,1),(2,8,1),(0,11,1),(0,15,1),(8,0,0),(5,16,1),(2,17,1),(2,18,1)], [(2,19,1),(0,20,1)],
  [(0,21,1),(5,24,1),(0,25,1),(2,26,1)], [(0,22,3)], [], [(0,23,3),(8,0,0),(2,27,1)]], [[(2,10,2)], [],
  [(5,24,3),(8,0,0),(8,0,0),(1,28,1),(1,29,1),(5,30,1),(1,31,1),(1,32,1)], [],
  [(8,0,0),(8,0,0),(1,34,1),(1,35,1),(1,36,1),(8,0,0),(8,0,0),(1,37,1)], [], [],
  [(8,0,0),(8,0,0),(1,39,1),(8,0,0),(8,0,0),(1,41,1),(1,42,1),(1,43,1)]],
  [[(0,11,2),(8,0,0),(0,25,2),(8,0,0),(8,0,0),(2,27,2)],
  [(8,0,0),(8,0,0),(8,0,0),(8,0,0),(1,34,2),(8,0,0),(8,0,0),(1,39,2)], [(0,25,3)]], [[(0,12,2)], [],
  [(2,26,3),(1,28,3)]], [[], [], [(8,0,0),(1,29,3)]], [[],
  [(8,0,0),(8,0,0),(8,0,0),(8,0,0),(8,0,0),(8,0,0),(1,38,2),(5,40,2)],
  [(8,0,0),(5,30,3),(8,0,0),(8,0,0),(8,0,0),(8,0,0),(8,0,0),(1,44,0)]], [[(2,13,2)], [], [(8,0,0),(1,31,3)]],
  [[(2,14,2)], [], [(8,0,0),(1,32,3),(8,0,0),(8,0,0),(8,0,0),(1,44,2)], [], [], [(8,0,0),(1,33,3)]]],
  [[[(0,3,1),(2,9,1),(0,12,1)], [], [(0,22,1)]], [], [[(0,15,2),(8,0,0),(2,26,2)],
  [(8,0,0),(8,0,0),(1,28,2),(8,0,0),(1,35,2)]]], [[], [], [[], [(8,0,0),(8,0,0),(1,29,2),(8,0,0),(1,36,2)],
  [(8,0,0),(1,34,3)]], [[], [], [(8,0,0),(1,35,3)]], [[], [], [(8,0,0),(1,36,3)]], [], [], [[], [],
  [(8,0,0),(1,37,3)]]], [[[(0,4,1)], [], [(0,23,1)]], [[], [],
  [(8,0,0),(8,0,0),(8,0,0),(8,0,0),(8,0,0),(8,0,0),(8,0,0),(1,33,1)], [], [], [], [(8,0,0),(8,0,0),(1,38,1)],
  [(8,0,0),(8,0,0),(5,40,1)]], [[(5,16,2)], [(8,0,0),(8,0,0),(5,30,2),(8,0,0),(8,0,0),(8,0,0),(8,0,0),(1,41,2)],
  [(2,27,3)], [], [], [], [], [(8,0,0),(8,0,0),(1,44,3)]]], [[[(3,5,1),(8,0,0),(2,13,1)]], [], [[(2,17,2)],
  [(8,0,0),(8,0,0),(1,31,2),(8,0,0),(8,0,0),(8,0,0),(8,0,0),(1,42,2)], [], [], [], [(8,0,0),(1,38,3)]]],
  [[[(1,6,1),(8,0,0),(2,14,1)]], [], [[(2,18,2)], [(8,0,0),(8,0,0),(1,32,2),(8,0,0),(1,37,2),(8,0,0),(8,0,0),(1,43,2)],
  [(8,0,0),(1,39,3)], [], [], [(8,0,0),(5,40,3),(1,44,1)]], [], [], [[], [(8,0,0),(8,0,0),(1,33,2)],
  [(8,0,0),(1,41,3)]], [[], [], [(8,0,0),(1,42,3)]], [[], [], [(8,0,0),(1,43,3)]]]],
  [[[[(8,0,0),(1,45,0),(8,0,0),(8,0,0),(8,0,0),(8,0,0),(1,46,0),(7,47,0)], [(1,45,3),(1,48,0),(1,49,0)],
  [(8,0,0),(1,50,0),(8,0,0),(8,0,0),(4,51,0),(8,0,0),(8,0,0),(7,52,0)], [], [], [(8,0,0),(1,53,0)], [(1,46,3)],
  [(7,47,3)]], [[(1,45,2),(1,54,0)], [(1,48,3),(1,55,0)],
  [(1,49,3),(8,0,0),(8,0,0),(8,0,0),(4,56,0),(8,0,0),(8,0,0),(7,57,0)]], [[(8,0,0),(8,0,0),(6,58,0)],
  [(1,50,3),(8,0,0),(1,59,0)], [(8,0,0),(1,60,0),(8,0,0),(8,0,0),(4,61,0),(8,0,0),(3,62,0),(7,63,0)],
  [(8,0,0),(8,0,0),(7,64,0)], [(4,51,3),(8,0,0),(4,65,0)], [],
  [(8,0,0),(8,0,0),(6,66,0),(8,0,0),(4,67,0),(8,0,0),(8,0,0),(7,68,0)], [(7,52,3),(0,69,0),(7,70,0)]], [], [], [[],
  [(1,53,3)], [], [], [(8,0,0),(8,0,0),(7,71,0)]], [[(1,46,2)]], [[(7,47,2)]]],
  [[[(1,45,1),(1,48,1),(1,50,1),(8,0,0),(8,0,0),(1,53,1)], [(1,54,1),(1,55,1)],
  [(8,0,0),(8,0,0),(1,60,1),(8,0,0),(8,0,0),(8,0,0),(8,0,0),(0,69,1)]], [[(1,48,2),(1,55,2)],
  [(1,55,3),(8,0,0),(1,72,0)], [(8,0,0),(1,72,3),(1,73,0),(8,0,0),(4,74,0),(1,75,0),(1,76,0),(7,77,0)], [], [],
  [(8,0,0),(8,0,0),(2,78,0)]], [[(1,49,2),(8,0,0),(1,59,2)], [(8,0,0),(1,72,2),(1,79,0)],
  [(8,0,0),(1,73,3),(1,80,0),(8,0,0),(4,81,0),(1,82,0),(8,0,0),(7,83,0)], [(8,0,0),(8,0,0),(1,84,0)],
  [(4,56,3),(4,74,3),(4,85,0)], [(8,0,0),(1,75,3)], [(8,0,0),(1,76,3),(1,86,0)], [(7,57,3),(7,77,3),(7,87,0)]], [[], [],
  [(8,0,0),(8,0,0),(1,88,0)]], [], [[], [], [(8,0,0),(2,78,3)]]], [[[(8,0,0),(1,49,1)], [],
  [(6,58,1),(1,59,1),(8,0,0),(7,64,1),(4,65,1),(8,0,0),(6,66,1),(7,70,1)], [], [],
  [(8,0,0),(8,0,0),(8,0,0),(8,0,0),(7,71,1)]], [[(1,50,2),(8,0,0),(1,60,2)],
  [(8,0,0),(1,72,1),(1,73,1),(8,0,0),(8,0,0),(2,78,1)],
  [(1,59,3),(1,79,1),(1,80,1),(1,84,1),(4,85,1),(8,0,0),(1,86,1),(7,87,1)], [(8,0,0),(8,0,0),(1,88,1)]], [[],
  [(1,60,3),(1,73,2),(1,80,2),(1,88,2)], [(8,0,0),(1,80,3),(8,0,0),(8,0,0),(4,89,0),(8,0,0),(8,0,0),(7,90,0)], [],
  [(4,61,3),(4,81,3),(4,89,3),(4,91,0)], [(8,0,0),(1,82,3),(8,0,0),(8,0,0),(7,92,0)], [(3,62,3)],
  [(7,63,3),(7,83,3),(7,90,3)]], [[], [], [(7,64,3),(1,84,3),(8,0,0),(8,0,0),(4,93,0),(8,0,0),(8,0,0),(7,94,0)]],
  [[(4,51,2),(4,56,2),(4,61,2)], [(8,0,0),(4,74,2),(4,81,2)],
  [(4,65,3),(4,85,3),(4,89,2),(4,93,2),(8,0,0),(5,95,0),(7,96,0)], [(8,0,0),(8,0,0),(4,91,3)]], [[],
  [(8,0,0),(1,75,2),(1,82,2)], [(8,0,0),(8,0,0),(8,0,0),(8,0,0),(5,95,2),(8,0,0),(8,0,0),(5,97,0)], [],
  [(8,0,0),(8,0,0),(7,92,3)]], [[(8,0,0),(8,0,0),(3,62,2)], [(8,0,0),(1,76,2)],
  [(6,66,3),(1,86,3),(8,0,0),(8,0,0),(7,96,2)], [], [(4,67,3)], [], [], [(7,68,3)]], [[(7,52,2),(7,57,2),(7,63,2)],
  [(0,69,3),(7,77,2),(7,83,2)], [(7,70,3),(7,87,3),(7,90,2),(7,94,2),(8,0,0),(5,97,2)]]], [[], [],
  [[(8,0,0),(8,0,0),(7,64,2)], [(8,0,0),(8,0,0),(1,84,2)], [(8,0,0),(1,88,3),(8,0,0),(8,0,0),(4,91,1)], [],
  [(8,0,0),(8,0,0),(4,93,3)], [], [], [(8,0,0),(8,0,0),(7,94,3)]]], [[[(8,0,0),(8,0,0),(4,51,1)],
  [(8,0,0),(8,0,0),(4,56,1)], [(8,0,0),(8,0,0),(4,61,1),(8,0,0),(8,0,0),(8,0,0),(4,67,1)]], [[],
  [(8,0,0),(8,0,0),(4,74,1)], [(8,0,0),(8,0,0),(4,81,1)]], [[(8,0,0),(8,0,0),(4,65,2),(8,0,0),(8,0,0),(7,71,2)],
  [(8,0,0),(8,0,0),(4,85,2)], [(8,0,0),(8,0,0),(4,89,1),(8,0,0),(8,0,0),(7,92,1)], [(8,0,0),(8,0,0),(4,93,1)], [],
  [(8,0,0),(8,0,0),(5,95,3)], [(8,0,0),(8,0,0),(7,96,3)]], [[], [], [(8,0,0),(8,0,0),(4,91,2)]]], [[], [[(1,53,2)],
  [(8,0,0),(8,0,0),(1,75,1)], [(8,0,0),(8,0,0),(1,82,1)]], [[], [(8,0,0),(2,78,2)], [], [], [(8,0,0),(8,0,0),(5,95,1)],
  [], [], [(8,0,0),(8,0,0),(5,97,3)]], [], [[], [], [(7,71,3),(8,0,0),(7,92,2)]]], [[[(1,46,1)], [],
  [(8,0,0),(8,0,0),(3,62,1)]], [[], [(8,0,0),(8,0,0),(1,76,1)]], [[(8,0,0),(8,0,0),(6,66,2)],
  [(8,0,0),(8,0,0),(1,86,2)], [], [], [(8,0,0),(8,0,0),(7,96,1)]], [], [[(8,0,0),(8,0,0),(4,67,2)]], [], [],
  [[(8,0,0),(8,0,0),(7,68,2)]]], [[[(7,47,1),(8,0,0),(7,52,1)], [(8,0,0),(8,0,0),(7,57,1)],
  [(8,0,0),(8,0,0),(7,63,1),(8,0,0),(8,0,0),(8,0,0),(7,68,1)]], [[(8,0,0),(8,0,0),(0,69,2)], [(8,0,0),(8,0,0),(7,77,1)],
  [(8,0,0),(8,0,0),(7,83,1)]], [[(8,0,0),(8,0,0),(7,70,2)], [(8,0,0),(8,0,0),(7,87,2)], [(8,0,0),(8,0,0),(7,90,1)],
  [(8,0,0),(8,0,0),(7,94,1)], [], [(8,0,0),(8,0,0),(5,97,1)]]]],
  [[[[(8,0,0),(2,98,0),(2,99,0),(8,0,0),(2,100,0),(8,0,0),(8,0,0),(1,101,0)],
  [(2,98,3),(8,0,0),(2,102,0),(8,0,0),(8,0,0),(2,103,0)],
  [(2,99,3),(2,104,0),(2,105,0),(2,106,0),(2,107,0),(0,108,0),(2,109,0),(2,110,0)], [(8,0,0),(8,0,0),(6,111,0)],
  [(2,100,3),(8,0,0),(3,112,0)], [(8,0,0),(7,113,0),(2,114,0),(8,0,0),(8,0,0),(8,0,0),(8,0,0),(5,115,0)], [],
  [(1,101,3),(8,0,0),(2,116,0)]], [[(2,98,2),(8,0,0),(2,117,0)], [(8,0,0),(8,0,0),(2,118,0)],
  [(2,102,3),(8,0,0),(2,119,0)], [], [(8,0,0),(8,0,0),(2,120,0)], [(2,103,3)], [], [(8,0,0),(8,0,0),(2,121,0)]],
  [[(2,99,2),(2,117,2),(2,122,0),(2,123,0),(8,0,0),(2,124,0),(8,0,0),(3,125,0)],
  [(2,104,3),(8,0,0),(2,126,0),(8,0,0),(8,0,0),(2,127,0)],
  [(2,105,3),(2,128,0),(2,129,0),(8,0,0),(8,0,0),(8,0,0),(8,0,0),(2,130,0)], [(2,106,3),(8,0,0),(1,131,0)],
  [(2,107,3),(8,0,0),(2,132,0),(8,0,0),(8,0,0),(2,133,0)], [(0,108,3),(8,0,0),(0,134,0),(8,0,0),(8,0,0),(2,135,0)],
  [(2,109,3),(8,0,0),(2,136,0)], [(2,110,3),(8,0,0),(2,137,0)]], [[(8,0,0),(8,0,0),(2,123,2)],
  [(8,0,0),(8,0,0),(2,138,0)], [(6,111,3),(6,139,0),(6,140,0)], [], [(8,0,0),(8,0,0),(2,141,0)]], [[(2,100,2)], [],
  [(3,112,3),(8,0,0),(2,142,0)]], [[(8,0,0),(8,0,0),(2,124,2)], [(7,113,3),(8,0,0),(2,143,0)],
  [(2,114,3),(2,144,0),(2,145,0)], [], [], [(8,0,0),(8,0,0),(1,146,0)], [], [(5,115,3),(8,0,0),(5,147,0)]], [[], [],
  [(8,0,0),(8,0,0),(2,148,0)], [], [], [], [], [(8,0,0),(8,0,0),(2,149,0)]], [[(1,101,2),(8,0,0),(3,125,2)],
  [(8,0,0),(8,0,0),(2,150,0)], [(2,116,3),(8,0,0),(2,151,0)], [], [(8,0,0),(8,0,0),(2,152,0)], [], [],
  [(8,0,0),(8,0,0),(2,153,0)]]], [[[(2,98,1),(8,0,0),(2,104,1),(8,0,0),(8,0,0),(7,113,1)], [],
  [(2,117,3),(8,0,0),(2,128,1)], [(8,0,0),(8,0,0),(6,139,1)], [], [(8,0,0),(8,0,0),(2,144,1)]], [[], [],
  [(2,118,3),(8,0,0),(2,154,0),(8,0,0),(8,0,0),(8,0,0),(1,155,0)]],
  [[(2,102,2),(2,118,2),(2,126,2),(2,138,2),(8,0,0),(2,143,2),(8,0,0),(2,150,2)], [],
  [(2,119,3),(2,154,3),(2,156,0),(8,0,0),(2,157,0),(8,0,0),(2,158,0),(2,159,0)], [], [], [], [(8,0,0),(1,155,3)]], [],
  [[], [], [(2,120,3),(8,0,0),(2,160,0)]], [[(2,103,2),(8,0,0),(2,127,2)], [], [(8,0,0),(8,0,0),(2,161,0)]], [[], [],
  [(8,0,0),(8,0,0),(2,162,0)]], [[], [], [(2,121,3),(8,0,0),(2,163,0)]]],
  [[[(2,99,1),(2,102,1),(2,105,1),(6,111,1),(3,112,1),(2,114,1),(8,0,0),(2,116,1)],
  [(2,117,1),(2,118,1),(2,119,1),(8,0,0),(2,120,1),(8,0,0),(8,0,0),(2,121,1)],
  [(2,122,1),(2,126,1),(2,129,1),(1,131,1),(2,132,1),(0,134,1),(2,136,1),(2,137,1)],
  [(2,123,3),(2,138,1),(6,140,1),(8,0,0),(2,141,1)], [(8,0,0),(8,0,0),(2,142,1)],
  [(2,124,3),(2,143,1),(2,145,1),(8,0,0),(8,0,0),(1,146,1),(8,0,0),(5,147,1)],
  [(8,0,0),(8,0,0),(2,148,1),(8,0,0),(8,0,0),(8,0,0),(8,0,0),(2,149,1)],
  [(3,125,3),(2,150,1),(2,151,1),(8,0,0),(2,152,1),(8,0,0),(8,0,0),(2,153,1)]],
  [[(2,104,2),(8,0,0),(2,128,2),(6,139,2),(8,0,0),(2,144,2)], [(8,0,0),(8,0,0),(2,154,1)],
  [(2,126,3),(8,0,0),(2,156,1)], [], [(8,0,0),(8,0,0),(2,160,1)], [(2,127,3),(8,0,0),(2,161,1)],
  [(8,0,0),(8,0,0),(2,162,1)], [(8,0,0),(8,0,0),(2,163,1)]],
  [[(2,105,2),(2,119,2),(2,129,2),(6,140,2),(2,142,2),(2,145,2),(2,148,2),(2,151,2)],
  [(2,128,3),(2,154,2),(2,156,2),(8,0,0),(2,160,2),(2,161,2),(2,162,2),(2,163,2)],
  [(2,129,3),(2,156,3),(8,0,0),(8,0,0),(8,0,0),(8,0,0),(8,0,0),(2,164,0)], [],
  [(8,0,0),(2,157,3),(8,0,0),(8,0,0),(2,165,0),(8,0,0),(2,166,0)], [], [(8,0,0),(2,158,3)],
  [(2,130,3),(2,159,3),(2,164,3),(8,0,0),(8,0,0),(8,0,0),(2,167,0),(2,168,0)]], [[(2,106,2)], [], [(1,131,3)]],
  [[(2,107,2)], [(8,0,0),(8,0,0),(2,157,2)], [(2,132,3)], [], [(8,0,0),(8,0,0),(2,165,3)], [(2,133,3)],
  [(8,0,0),(8,0,0),(2,166,3)]], [[(0,108,2)], [], [(0,134,3)], [], [], [(2,135,3)]], [[(2,109,2)],
  [(8,0,0),(1,155,2),(2,158,2)], [(2,136,3)]], [[(2,110,2),(8,0,0),(2,130,2)], [(8,0,0),(8,0,0),(2,159,2)],
  [(2,137,3),(8,0,0),(2,164,2)], [], [], [], [(8,0,0),(8,0,0),(2,167,3)], [(8,0,0),(8,0,0),(2,168,3)]]],
  [[[(8,0,0),(8,0,0),(2,106,1)], [], [(2,123,1)]], [[], [], [(2,138,3)]], [[(6,111,2),(8,0,0),(1,131,2)], [(6,139,3)],
  [(6,140,3)]], [], [[], [], [(2,141,3)]]], [[[(2,100,1),(8,0,0),(2,107,1)]], [[], [], [(8,0,0),(8,0,0),(2,157,1)]],
  [[(3,112,2),(2,120,2),(2,132,2),(2,141,2),(8,0,0),(8,0,0),(8,0,0),(2,152,2)], [],
  [(2,142,3),(2,160,3),(8,0,0),(8,0,0),(2,165,1)]], [], [[], [], [(8,0,0),(8,0,0),(2,165,2)]],
  [[(8,0,0),(8,0,0),(2,133,2)]], [[], [], [(8,0,0),(8,0,0),(2,166,2)]]], [[[(8,0,0),(2,103,1),(0,108,1)], [],
  [(2,124,1),(2,127,1),(8,0,0),(8,0,0),(2,133,1),(2,135,1)]], [[(7,113,2)], [], [(2,143,3)]],
  [[(2,114,2),(8,0,0),(0,134,2),(8,0,0),(8,0,0),(1,146,2)], [(2,144,3)], [(2,145,3),(2,161,3)]], [], [],
  [[(8,0,0),(8,0,0),(2,135,2)], [], [(1,146,3)]], [], [[(5,115,2)], [], [(5,147,3)]]], [[[(8,0,0),(8,0,0),(2,109,1)]],
  [[], [(8,0,0),(8,0,0),(1,155,1)], [(8,0,0),(8,0,0),(2,158,1)]], [[(8,0,0),(8,0,0),(2,136,2)], [],
  [(2,148,3),(2,162,3),(8,0,0),(8,0,0),(2,166,1),(8,0,0),(8,0,0),(2,167,1)]], [], [], [], [], [[], [], [(2,149,3)]]],
  [[[(1,101,1),(8,0,0),(2,110,1),(8,0,0),(8,0,0),(5,115,1)], [], [(3,125,1),(8,0,0),(2,130,1)]], [[], [],
  [(2,150,3),(8,0,0),(2,159,1)]], [[(2,116,2),(2,121,2),(2,137,2),(8,0,0),(8,0,0),(5,147,2),(2,149,2),(2,153,2)], [],
  [(2,151,3),(2,163,3),(2,164,1),(8,0,0),(8,0,0),(8,0,0),(8,0,0),(2,168,1)]], [], [[], [], [(2,152,3)]], [], [[], [],
  [(8,0,0),(8,0,0),(2,167,2)]], [[], [], [(2,153,3),(8,0,0),(2,168,2)]]]],
  [[[[(8,0,0),(3,169,0),(2,170,0),(8,0,0),(1,171,0),(8,0,0),(8,0,0),(6,172,0)], [(3,169,3),(8,0,0),(3,173,0)],
  [(2,170,3)], [], [(1,171,3),(8,0,0),(1,174,0)], [], [(8,0,0),(8,0,0),(2,175,0)], [(6,172,3)]],
  [[(3,169,2),(8,0,0),(1,176,0)], [], [(3,173,3),(8,0,0),(0,177,0)]], [[(2,170,2),(1,176,2)], [], [], [], [],
  [(8,0,0),(1,178,0)]], [], [[(1,171,2)], [], [(1,174,3)]], [], [[], [], [(2,175,3)]], [[(6,172,2)]]], [[[(3,169,1)],
  [], [(1,176,3),(8,0,0),(8,0,0),(8,0,0),(8,0,0),(1,178,1)]], [], [[(3,173,2)], [], [(0,177,3)]]],
  [[[(2,170,1),(3,173,1),(8,0,0),(8,0,0),(1,174,1),(8,0,0),(2,175,1)], [(1,176,1),(8,0,0),(0,177,1)]], [],
  [[(8,0,0),(0,177,2)]], [], [], [[], [(1,178,3)]]], [], [[[(1,171,1)]], [], [[(1,174,2)]]], [[],
  [[(8,0,0),(8,0,0),(1,178,2)]]], [[], [], [[(2,175,2)]]], [[[(6,172,1)]]]], [[[], [[], [(8,0,0),(8,0,0),(0,179,0)],
  [(8,0,0),(8,0,0),(0,180,0),(8,0,0),(8,0,0),(0,181,0)]], [[], [(8,0,0),(8,0,0),(0,182,0)], [(8,0,0),(8,0,0),(1,183,0)],
  [(8,0,0),(8,0,0),(6,184,0)], [], [(8,0,0),(8,0,0),(0,185,0)]], [[], [], [(8,0,0),(8,0,0),(1,186,0)]]], [[], [[], [],
  [(0,179,3)]], [[(8,0,0),(0,179,2),(0,182,2)], [], [(0,180,3)], [], [], [(0,181,3)]]], [[[],
  [(8,0,0),(0,179,1),(0,180,1)], [(8,0,0),(0,182,1),(1,183,1),(6,184,1),(8,0,0),(0,185,1)],
  [(8,0,0),(8,0,0),(1,186,1)]], [[], [], [(0,182,3)]], [[(8,0,0),(0,180,2),(1,183,2),(1,186,2)], [], [(1,183,3)]], [[],
  [], [(6,184,3)]], [], [[(8,0,0),(0,181,2)], [], [(0,185,3)]]], [[], [], [[(8,0,0),(8,0,0),(6,184,2)], [],
  [(1,186,3)]]], [], [[[], [(8,0,0),(8,0,0),(0,181,1)]], [], [[(8,0,0),(8,0,0),(0,185,2)]]]],
  [[[[(8,0,0),(8,0,0),(2,187,0)], [], [(2,187,3),(5,188,0),(5,189,0),(2,190,0),(8,0,0),(8,0,0),(8,0,0),(2,191,0)], [],
  [], [(8,0,0),(8,0,0),(0,192,0)]], [], [[(2,187,2),(8,0,0),(2,193,0)],
  [(5,188,3),(8,0,0),(2,194,0),(8,0,0),(8,0,0),(2,195,0)], [(5,189,3),(8,0,0),(0,196,0),(8,0,0),(4,197,0)], [(2,190,3)],
  [], [], [], [(2,191,3),(8,0,0),(2,198,0)]], [], [], [[], [], [(0,192,3)]]], [[[(8,0,0),(8,0,0),(5,188,1)]], [],
  [[(8,0,0),(8,0,0),(2,194,2)], [(8,0,0),(8,0,0),(2,199,0)], [(8,0,0),(8,0,0),(0,200,0)], [],
  [(8,0,0),(8,0,0),(2,201,0)], [], [], [(8,0,0),(8,0,0),(2,202,0)]], [], [], [[(8,0,0),(8,0,0),(2,195,2)]]],
  [[[(2,187,1),(8,0,0),(5,189,1),(8,0,0),(8,0,0),(0,192,1)], [],
  [(2,193,1),(2,194,1),(0,196,1),(8,0,0),(8,0,0),(8,0,0),(8,0,0),(2,198,1)]], [[(5,188,2)], [],
  [(2,194,3),(2,199,1),(0,200,1),(8,0,0),(2,201,1),(8,0,0),(8,0,0),(2,202,1)], [], [], [(2,195,3)]],
  [[(5,189,2),(8,0,0),(0,196,2)], [(8,0,0),(8,0,0),(0,200,2)], [(0,196,3),(0,200,3)], [], [(4,197,3)]], [[(2,190,2)]],
  [[(8,0,0),(8,0,0),(4,197,2)], [], [(8,0,0),(2,201,3)]], [], [], [[(2,191,2)], [], [(2,198,3),(2,202,3)]]],
  [[[(8,0,0),(8,0,0),(2,190,1)]]], [[[], [], [(8,0,0),(8,0,0),(4,197,1)]], [], [[], [(8,0,0),(8,0,0),(2,201,2)]]], [[[],
  [], [(8,0,0),(2,195,1)]], [], [[(0,192,2)]]], [], [[[(8,0,0),(8,0,0),(2,191,1)]], [], [[(8,0,0),(8,0,0),(2,198,2)],
  [(8,0,0),(8,0,0),(2,202,2)]]]], [[[[(8,0,0),(1,203,0),(1,204,0)], [(1,203,3)], [(1,204,3)]], [[(1,203,2)]],
  [[(1,204,2)], [(8,0,0),(8,0,0),(0,205,0)]]], [[[(1,203,1)]], [], [[(8,0,0),(8,0,0),(0,205,2)],
  [(8,0,0),(8,0,0),(5,206,0),(1,207,0)], [(8,0,0),(8,0,0),(5,208,0)]], [[], [(8,0,0),(8,0,0),(1,207,2)]]],
  [[[(1,204,1)], [], [(8,0,0),(0,205,1)]], [[], [], [(0,205,3),(5,206,1),(5,208,1)], [(8,0,0),(1,207,3)]], [[],
  [(8,0,0),(8,0,0),(5,208,2)], [(8,0,0),(5,208,3)]]], [[], [[], [], [(8,0,0),(1,207,1)]]]],
  [[[[(8,0,0),(8,0,0),(8,0,0),(8,0,0),(8,0,0),(8,0,0),(8,0,0),(7,209,0)], [], [], [], [], [], [], [(7,209,3)]], [[],
  [(8,0,0),(8,0,0),(0,210,0)], [(8,0,0),(8,0,0),(0,211,0),(8,0,0),(8,0,0),(0,212,0)]], [[], [(8,0,0),(8,0,0),(0,213,0)],
  [(8,0,0),(8,0,0),(1,214,0),(8,0,0),(8,0,0),(1,215,0)], [(8,0,0),(8,0,0),(1,216,0)], [], [(8,0,0),(8,0,0),(5,217,0)],
  [], [(8,0,0),(8,0,0),(0,218,0)]], [], [], [], [], [[(7,209,2)]]], [[], [[], [], [(0,210,3)]],
  [[(8,0,0),(0,210,2),(0,213,2)], [], [(0,211,3)], [], [], [(0,212,3)]]], [[[], [(8,0,0),(0,210,1),(0,211,1)],
  [(8,0,0),(0,213,1),(1,214,1),(1,216,1),(8,0,0),(5,217,1),(8,0,0),(0,218,1)]], [[], [], [(0,213,3)]],
  [[(8,0,0),(0,211,2),(1,214,2)], [], [(1,214,3)], [], [], [(1,215,3)]], [[], [], [(1,216,3)]], [],
  [[(8,0,0),(0,212,2),(1,215,2)], [], [(5,217,3)]], [], [[], [], [(0,218,3)]]], [[], [], [[(8,0,0),(8,0,0),(1,216,2)]]],
  [], [[[], [(8,0,0),(8,0,0),(0,212,1)], [(8,0,0),(8,0,0),(1,215,1)]], [], [[(8,0,0),(8,0,0),(5,217,2)]]], [],
  [[[(7,209,1)]], [], [[(8,0,0),(8,0,0),(0,218,2)]]]]]

/-- The initial loop in its window. -/
def langtonStart : List (List Nat) :=
  [[0, 0, 0, 0, 0, 0, 0, 0, 0, 0, 0, 0, 0, 0, 0, 0, 0, 0, 0, 0, 0, 0, 0, 0, 0, 0, 0, 0],
   [0, 0, 0, 0, 0, 0, 0, 0, 0, 0, 0, 0, 0, 0, 0, 0, 0, 0, 0, 0, 0, 0, 0, 0, 0, 0, 0, 0],
   [0, 0, 0, 0, 0, 0, 0, 0, 0, 0, 0, 0, 0, 0, 0, 0, 0, 0, 0, 0, 0, 0, 0, 0, 0, 0, 0, 0],
   [0, 0, 0, 0, 0, 0, 0, 0, 0, 0, 0, 0, 0, 0, 0, 0, 0, 0, 0, 0, 0, 0, 0, 0, 0, 0, 0, 0],
   [0, 0, 0, 0, 0, 0, 0, 0, 0, 0, 0, 0, 0, 0, 0, 0, 0, 0, 0, 0, 0, 0, 0, 0, 0, 0, 0, 0],
   [0, 0, 0, 0, 0, 0, 0, 0, 0, 0, 0, 0, 0, 0, 0, 0, 0, 0, 0, 0, 0, 0, 0, 0, 0, 0, 0, 0],
   [0, 0, 2, 2, 2, 2, 2, 2, 2, 2, 0, 0, 0, 0, 0, 0, 0, 0, 0, 0, 0, 0, 0, 0, 0, 0, 0, 0],
   [0, 2, 1, 7, 0, 1, 4, 0, 1, 4, 2, 0, 0, 0, 0, 0, 0, 0, 0, 0, 0, 0, 0, 0, 0, 0, 0, 0],
   [0, 2, 0, 2, 2, 2, 2, 2, 2, 0, 2, 0, 0, 0, 0, 0, 0, 0, 0, 0, 0, 0, 0, 0, 0, 0, 0, 0],
   [0, 2, 7, 2, 0, 0, 0, 0, 2, 1, 2, 0, 0, 0, 0, 0, 0, 0, 0, 0, 0, 0, 0, 0, 0, 0, 0, 0],
   [0, 2, 1, 2, 0, 0, 0, 0, 2, 1, 2, 0, 0, 0, 0, 0, 0, 0, 0, 0, 0, 0, 0, 0, 0, 0, 0, 0],
   [0, 2, 0, 2, 0, 0, 0, 0, 2, 1, 2, 0, 0, 0, 0, 0, 0, 0, 0, 0, 0, 0, 0, 0, 0, 0, 0, 0],
   [0, 2, 7, 2, 0, 0, 0, 0, 2, 1, 2, 0, 0, 0, 0, 0, 0, 0, 0, 0, 0, 0, 0, 0, 0, 0, 0, 0],
   [0, 2, 1, 2, 2, 2, 2, 2, 2, 1, 2, 2, 2, 2, 2, 0, 0, 0, 0, 0, 0, 0, 0, 0, 0, 0, 0, 0],
   [0, 2, 0, 7, 1, 0, 7, 1, 0, 7, 1, 1, 1, 1, 1, 2, 0, 0, 0, 0, 0, 0, 0, 0, 0, 0, 0, 0],
   [0, 0, 2, 2, 2, 2, 2, 2, 2, 2, 2, 2, 2, 2, 2, 0, 0, 0, 0, 0, 0, 0, 0, 0, 0, 0, 0, 0],
   [0, 0, 0, 0, 0, 0, 0, 0, 0, 0, 0, 0, 0, 0, 0, 0, 0, 0, 0, 0, 0, 0, 0, 0, 0, 0, 0, 0]]

/-- The window after 151 steps. -/
def langtonAfter : List (List Nat) :=
  [[0, 0, 0, 0, 0, 0, 0, 0, 0, 0, 0, 0, 0, 0, 0, 0, 0, 0, 0, 0, 0, 0, 0, 0, 0, 0, 0, 0],
   [0, 0, 0, 0, 0, 0, 0, 0, 0, 2, 0, 0, 0, 0, 0, 0, 0, 0, 0, 0, 0, 0, 0, 0, 0, 0, 0, 0],
   [0, 0, 0, 0, 0, 0, 0, 0, 2, 1, 2, 0, 0, 0, 0, 0, 0, 0, 0, 0, 0, 0, 0, 0, 0, 0, 0, 0],
   [0, 0, 0, 0, 0, 0, 0, 0, 2, 7, 2, 0, 0, 0, 0, 0, 0, 0, 0, 0, 0, 0, 0, 0, 0, 0, 0, 0],
   [0, 0, 0, 0, 0, 0, 0, 0, 2, 0, 2, 0, 0, 0, 0, 0, 0, 0, 0, 0, 0, 0, 0, 0, 0, 0, 0, 0],
   [0, 0, 0, 0, 0, 0, 0, 0, 2, 1, 2, 0, 0, 0, 0, 0, 0, 0, 0, 0, 0, 0, 0, 0, 0, 0, 0, 0],
   [0, 0, 2, 2, 2, 2, 2, 2, 2, 7, 2, 0, 0, 2, 2, 2, 2, 2, 2, 2, 2, 0, 0, 0, 0, 0, 0, 0],
   [0, 2, 1, 1, 1, 7, 0, 1, 7, 0, 2, 0, 2, 1, 7, 0, 1, 4, 0, 1, 4, 2, 0, 0, 0, 0, 0, 0],
   [0, 2, 1, 2, 2, 2, 2, 2, 2, 1, 2, 0, 2, 0, 2, 2, 2, 2, 2, 2, 0, 2, 0, 0, 0, 0, 0, 0],
   [0, 2, 1, 2, 0, 0, 0, 0, 2, 7, 2, 0, 2, 7, 2, 0, 0, 0, 0, 2, 1, 2, 0, 0, 0, 0, 0, 0],
   [0, 2, 0, 2, 0, 0, 0, 0, 2, 0, 2, 0, 2, 1, 2, 0, 0, 0, 0, 2, 1, 2, 0, 0, 0, 0, 0, 0],
   [0, 2, 4, 2, 0, 0, 0, 0, 2, 1, 2, 0, 2, 0, 2, 0, 0, 0, 0, 2, 1, 2, 0, 0, 0, 0, 0, 0],
   [0, 2, 1, 2, 0, 0, 0, 0, 2, 7, 2, 0, 2, 7, 2, 0, 0, 0, 0, 2, 1, 2, 0, 0, 0, 0, 0, 0],
   [0, 2, 0, 2, 2, 2, 2, 2, 2, 0, 2, 0, 2, 1, 2, 2, 2, 2, 2, 2, 1, 2, 2, 2, 2, 2, 0, 0],
   [0, 2, 4, 1, 0, 7, 1, 0, 7, 1, 2, 0, 2, 0, 7, 1, 0, 7, 1, 0, 7, 1, 1, 1, 1, 1, 2, 0],
   [0, 0, 2, 2, 2, 2, 2, 2, 2, 2, 0, 0, 0, 2, 2, 2, 2, 2, 2, 2, 2, 2, 2, 2, 2, 2, 0, 0],
   [0, 0, 0, 0, 0, 0, 0, 0, 0, 0, 0, 0, 0, 0, 0, 0, 0, 0, 0, 0, 0, 0, 0, 0, 0, 0, 0, 0]]

set_option maxRecDepth 100000 in
theorem langtonTrie_ok : trieOk langtonRules langtonTrie = true := by decide +kernel

set_option maxRecDepth 100000 in
theorem langton_run : runWin langtonTrie 17 28 (List.replicate 28 0) 151 langtonStart = some langtonAfter := by decide +kernel

end Verif
