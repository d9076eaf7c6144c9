import Verif.Model.PlotData
import Verif.Proofs.NetworkX
import Verif.Props.Network
/-! # Lemmas about the plotted data -/

namespace Verif

/-! ## Counting in a dict -/

theorem get?_count {K : Type} [DecidableEq K] (d : Dict K Nat) (k k' : K) :
    Dict.get? ((if d.has k then d else d.set k 0).modify k (· + 1)) k' =
      if k = k' then some ((d.get? k').getD 0 + 1) else d.get? k' := by
  rw [Dict.get?_modify]
  by_cases h : k = k'
  · subst h
    rw [if_pos rfl, if_pos rfl]
    by_cases hk : d.has k = true
    · rw [if_pos hk]
      obtain ⟨v, hv⟩ := Option.isSome_iff_exists.1 hk
      rw [hv]; rfl
    · rw [if_neg hk, Dict.get?_set_self]
      have : d.get? k = none := by
        unfold Dict.has at hk; simpa using hk
      rw [this]; rfl
  · rw [if_neg h, if_neg h]
    split
    · rfl
    · rw [Dict.get?_set, if_neg h]

/-- The number of times `f` takes a value, in a dict. -/
theorem foldlM_count {α : Type} {step : Dict Int Nat → α → Except Err (Dict Int Nat)} {f : α → Nat} (l : List α)
    (hs : ∀ d, ∀ x ∈ l, step d x = .ok ((if d.has (f x : Int) then d else d.set (f x : Int) 0).modify (f x : Int) (· + 1)))
    (d : Dict Int Nat) :
    ∃ d', l.foldlM step d = .ok d' ∧ ∀ k : Int, d'.get? k =
      if l.countP (fun x => decide ((f x : Int) = k)) = 0 then d.get? k
      else some ((d.get? k).getD 0 + l.countP (fun x => decide ((f x : Int) = k))) := by
  induction l generalizing d with
  | nil => exact ⟨d, rfl, fun k => by simp⟩
  | cons x l ih =>
    obtain ⟨d', h1, h2⟩ := ih (fun d y hy => hs d y (by simp [hy]))
      ((if d.has (f x : Int) then d else d.set (f x : Int) 0).modify (f x : Int) (· + 1))
    refine ⟨d', ?_, ?_⟩
    · rw [List.foldlM_cons, hs d x (by simp)]; exact h1
    · intro k
      rw [h2, get?_count, List.countP_cons]
      by_cases hk : (f x : Int) = k
      · simp only [hk, if_true, decide_true]
        split <;> simp_all <;> omega
      · simp [hk]

/-! ## The greatest of some numbers -/

theorem foldl_max_spec (ks : List Int) (k : Int) :
    (∀ x ∈ k :: ks, x ≤ ks.foldl max k) ∧ ks.foldl max k ∈ k :: ks := by
  induction ks generalizing k with
  | nil => simp
  | cons a ks ih =>
    obtain ⟨h1, h2⟩ := ih (max k a)
    rw [List.foldl_cons]
    generalize ks.foldl max (max k a) = m at *
    have h0 := h1 (max k a) (by simp)
    constructor
    · intro x hx
      simp only [List.mem_cons] at hx
      rcases hx with rfl | rfl | hx
      · omega
      · omega
      · exact h1 x (by simp [hx])
    · simp only [List.mem_cons] at h2 ⊢
      rcases h2 with h2 | h2
      · omega
      · exact Or.inr (Or.inr h2)

theorem sum_countP {α : Type} (l : List α) (f : α → Nat) (m : Nat) :
    ((List.range m).map (fun i => l.countP (fun x => decide (f x = i + 1)))).sum =
      l.countP (fun x => decide (0 < f x ∧ f x ≤ m)) := by
  induction m with
  | zero =>
    simp only [List.range_zero, List.map_nil, List.sum_nil]
    symm; rw [List.countP_eq_zero]
    intro x _; simp only [decide_eq_true_eq]; omega
  | succ m ih =>
    rw [List.range_succ, List.map_append, List.sum_append, ih]
    clear ih
    simp only [List.map_cons, List.map_nil, List.sum_cons, List.sum_nil, Nat.add_zero]
    induction l with
    | nil => rfl
    | cons x l ihl =>
      simp only [List.countP_cons, decide_eq_true_eq]
      rw [← ihl]
      split <;> split <;> split <;> omega

/-! ## The loop over consecutive values -/

theorem poincare_loop {V : Type} (a : List V) (T : Int) (n : Nat) (hn : n = 0 ∨ n + 1 ≤ (lastSlice a T).length) :
    (List.range n).foldlM (poincareStep a T) [] = .ok ((lastSlice a T).zip (lastSlice a T).tail |>.take n) := by
  induction n with
  | zero => rfl
  | succ n ih =>
    rw [List.range_succ, List.foldlM_append, ih (by omega)]
    have h1 : n < (lastSlice a T).length := by omega
    have h2 : n + 1 < (lastSlice a T).length := by omega
    show (List.foldlM (poincareStep a T) _ [n]) = _
    simp only [List.foldlM_cons, List.foldlM_nil, poincareStep]
    rw [pyGet_natCast _ h1, show ((n : Int) + 1) = ((n + 1 : Nat) : Int) by omega, pyGet_natCast _ h2]
    show Except.ok _ = Except.ok _
    congr 1
    rw [List.take_add_one, List.getElem?_zip_eq_some (z := ((lastSlice a T)[n], (lastSlice a T)[n + 1])) |>.2 ⟨List.getElem?_eq_getElem h1, by
      rw [List.getElem?_tail]; exact List.getElem?_eq_getElem h2⟩]
    rfl

theorem foldlM_error {ε α β : Type} {step : β → α → Except ε β} (l : List α) (r : List α) (b : β) {e : ε}
    (h : l.foldlM step b = .error e) : (l ++ r).foldlM step b = .error e := by
  rw [List.foldlM_append, h]; rfl

theorem poincare_fail {V : Type} (a : List V) (T : Int) (n : Nat) (hn : 1 ≤ n) (hl : (lastSlice a T).length ≤ n) :
    (List.range n).foldlM (poincareStep a T) [] = .error .indexError := by
  have hk : n = ((lastSlice a T).length - 1) + (n - (lastSlice a T).length) + 1 ∨ (lastSlice a T).length = 0 := by omega
  have hout : ∀ p : Nat, (lastSlice a T).length ≤ p → pyGet (lastSlice a T) (p : Int) = .error .indexError := by
    intro p hp
    unfold pyGet
    rw [pyIndex_eq_none_iff.2 (Or.inr (by omega))]
  have key : ∀ m : Nat, m = (lastSlice a T).length - 1 → (List.range (m + 1)).foldlM (poincareStep a T) [] = .error .indexError := by
    intro m hm
    rw [List.range_succ, List.foldlM_append, poincare_loop a T m (by omega)]
    show (List.foldlM (poincareStep a T) _ [m]) = _
    simp only [List.foldlM_cons, List.foldlM_nil, poincareStep]
    by_cases h0 : m < (lastSlice a T).length
    · rw [pyGet_natCast _ h0, show ((m : Int) + 1) = ((m + 1 : Nat) : Int) by omega, hout (m + 1) (by omega)]
      rfl
    · rw [hout m (by omega)]
      rfl
  have e := key _ rfl
  have hsplit : List.range n = List.range ((lastSlice a T).length - 1 + 1) ++
      (List.range (n - ((lastSlice a T).length - 1 + 1))).map (((lastSlice a T).length - 1 + 1) + ·) := by
    rw [← List.range_add]; congr 1; omega
  rw [hsplit]
  exact foldlM_error _ _ _ e

/-! ## `np.unique` -/

theorem mem_distinct {V : Type} [DecidableEq V] (l : List V) (v : V) : v ∈ distinct l ↔ v ∈ l := by
  induction l with
  | nil => rfl
  | cons a l ih =>
    simp only [distinct, List.mem_cons, List.mem_filter, ih, decide_eq_true_eq]
    by_cases h : v = a <;> simp [h]

theorem nodup_distinct {V : Type} [DecidableEq V] (l : List V) : (distinct l).Nodup := by
  induction l with
  | nil => exact List.nodup_nil
  | cons a l ih =>
    rw [distinct, List.nodup_cons]
    exact ⟨by simp, ih.filter _⟩

end Verif
