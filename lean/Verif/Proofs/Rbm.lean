import Verif.Model.Rbm
import Verif.Spec.Rbm
import Verif.Proofs.StaticRun
import Verif.Proofs.Families
import Verif.Props.RunRows
import Verif.Props.Continuous
/-! # Lemmas for the restricted Boltzmann machine demo -/

namespace Verif
open Spec MG

/-! ## Reading the files -/

/-- The attributes given for an edge. -/
def lookupE (W : EdgeAttrs RbmLabel Rat) (x y : RbmLabel) : Option (Attr Rat) := (W.get? x).bind (fun r => r.get? y)

theorem lookupE_read (node2 : RbmLabel) (W : EdgeAttrs RbmLabel Rat) (w : Rat) (j : Nat) (x y : RbmLabel) :
    lookupE (rbmReadWeight node2 W (w, j)) x y = if x = .v j ∧ y = node2 then some [("weight", w)] else lookupE W x y := by
  unfold rbmReadWeight lookupE
  by_cases hk : RbmLabel.v j ∈ W.keys
  · simp only [if_pos hk]
    rw [Dict.get?_set]
    obtain ⟨r, hr⟩ := Dict.exists_get?_of_mem_keys hk
    by_cases hx : RbmLabel.v j = x
    · subst hx
      simp only [if_true, Option.bind_some, hr, Option.getD_some, true_and]
      rw [Dict.get?_set]
      by_cases hy : node2 = y <;> simp [hy, eq_comm]
    · simp [hx, Ne.symm hx]
  · simp only [if_neg hk]
    have hn : Dict.get? W (RbmLabel.v j) = none := Dict.get?_eq_none_iff.2 hk
    rw [Dict.get?_set]
    by_cases hx : RbmLabel.v j = x
    · subst hx
      simp only [if_true, Option.bind_some, Dict.get?_set_self, Option.getD_some, true_and, hn, Option.bind_none]
      rw [Dict.get?_set]
      by_cases hy : node2 = y
      · simp [hy]
      · simp [hy, Ne.symm hy]
    · rw [if_neg hx, Dict.get?_set, if_neg hx]
      simp [Ne.symm hx]

theorem rbmReadRow (i : Nat) : ∀ (l : List Rat) (k : Nat) (W : EdgeAttrs RbmLabel Rat) (x y : Nat),
    lookupE ((l.zipIdx k).foldl (rbmReadWeight (.h i)) W) (.v x) (.h y) =
      ((if y = i ∧ k ≤ x then l[x - k]? else none).map (fun w => [("weight", w)])).or (lookupE W (.v x) (.h y)) := by
  intro l
  induction l with
  | nil => intro k W x y; simp
  | cons w l ih =>
    intro k W x y
    rw [List.zipIdx_cons, List.foldl_cons, ih, lookupE_read]
    by_cases hy : y = i
    · subst hy
      by_cases hx : x = k
      · subst hx
        rw [if_neg (by omega)]
        simp
      · by_cases hr : k + 1 ≤ x
        · have : x - k = (x - (k + 1)) + 1 := by omega
          rw [if_pos ⟨rfl, hr⟩, if_neg (by simp [hx]), if_pos ⟨rfl, by omega⟩, this, List.getElem?_cons_succ]
        · rw [if_neg (by omega), if_neg (by simp [hx]), if_neg (by omega)]
    · rw [if_neg (by omega), if_neg (by simp [hy]), if_neg (by omega)]

theorem rbmReadRows : ∀ (rows : List (List Rat)) (k : Nat) (W : EdgeAttrs RbmLabel Rat) (x y : Nat),
    lookupE ((rows.zipIdx k).foldl (fun W p => p.1.zipIdx.foldl (rbmReadWeight (.h p.2)) W) W) (.v x) (.h y) =
      ((if k ≤ y then (rows[y - k]?).bind (fun l => l[x]?) else none).map (fun w => [("weight", w)])).or (lookupE W (.v x) (.h y)) := by
  intro rows
  induction rows with
  | nil => intro k W x y; simp
  | cons l rows ih =>
    intro k W x y
    rw [List.zipIdx_cons, List.foldl_cons, ih, rbmReadRow]
    by_cases hy : y = k
    · subst hy
      rw [if_neg (by omega), if_pos ⟨rfl, by omega⟩, if_pos (by omega)]
      simp
    · by_cases hr : k + 1 ≤ y
      · have : y - k = (y - (k + 1)) + 1 := by omega
        rw [if_pos hr, if_neg (by omega), if_pos (by omega), this, List.getElem?_cons_succ]
        simp
      · rw [if_neg (by omega), if_neg (by omega), if_neg (by omega)]
        simp

theorem rbmReadBiases_from {mk : Nat → RbmLabel} (hmk : ∀ i j, mk i = mk j → i = j) : ∀ (rows : List (List Rat)) (k : Nat) (d : Dict RbmLabel Rat),
    (∀ l ∈ rows, l ≠ []) → ∃ d', (rows.zipIdx k).foldlM (fun biases (p : List Rat × Nat) => match p.1[0]? with
      | none => Except.error Err.indexError
      | some b => Except.ok (Dict.set biases (mk p.2) b)) d = .ok d' ∧
      ∀ i, d'.get? (mk i) = if k ≤ i ∧ i < k + rows.length then (rows[i - k]?).bind (fun l => l[0]?) else d.get? (mk i) := by
  intro rows
  induction rows with
  | nil => intro k d _; exact ⟨d, rfl, fun i => by simp; omega⟩
  | cons l rows ih =>
    intro k d h
    obtain ⟨b, l', rfl⟩ := List.exists_cons_of_ne_nil (h l (by simp))
    obtain ⟨d', e1, e2⟩ := ih (k + 1) (Dict.set d (mk k) b) (fun l hl => h l (by simp [hl]))
    refine ⟨d', e1, ?_⟩
    intro i
    rw [e2, Dict.get?_set, List.length_cons]
    by_cases hi : i = k
    · subst hi
      rw [if_neg (by omega), if_pos rfl, if_pos (by omega)]
      simp
    · have hm : mk k ≠ mk i := fun he => hi (hmk _ _ he).symm
      rw [if_neg hm]
      by_cases hr : k + 1 ≤ i ∧ i < k + 1 + rows.length
      · have : i - k = (i - (k + 1)) + 1 := by omega
        rw [if_pos hr, if_pos (by omega), this, List.getElem?_cons_succ]
      · rw [if_neg hr, if_neg (by omega)]

/-! ## The initial conditions -/

theorem rbmSet_fold {value : RbmLabel → Rat} {biases : Dict RbmLabel Rat} {b : RbmLabel → Rat} : ∀ (xs : List RbmLabel) (d : Dict RbmLabel (Rat × Rat)),
    xs.Nodup → (∀ x ∈ xs, x ∉ d.keys) → (∀ x ∈ xs, biases.get? x = some (b x)) →
    ∃ d', xs.foldlM (rbmSet value biases) d = .ok d' ∧ d'.keys = d.keys ++ xs ∧
      ∀ x, d'.get? x = if x ∈ xs then some (value x, b x) else d.get? x := by
  intro xs
  induction xs with
  | nil => intro d _ _ _; exact ⟨d, rfl, by simp, by simp⟩
  | cons y xs ih =>
    intro d hn hd hb
    rw [List.nodup_cons] at hn
    have hy : y ∉ d.keys := hd y (by simp)
    have hkeys : (Dict.set d y (value y, b y)).keys = d.keys ++ [y] := by rw [Dict.keys_set, if_neg hy]
    obtain ⟨d', e1, e2, e3⟩ := ih (Dict.set d y (value y, b y)) hn.2 (by
      intro x hx
      rw [hkeys]
      intro hm
      rcases List.mem_append.1 hm with hm | hm
      · exact hd x (by simp [hx]) hm
      · rw [List.mem_singleton] at hm
        exact hn.1 (hm ▸ hx)) (fun x hx => hb x (by simp [hx]))
    refine ⟨d', ?_, by rw [e2, hkeys]; simp, ?_⟩
    · have : rbmSet value biases d y = .ok (Dict.set d y (value y, b y)) := by
        simp [rbmSet, Dict.get, hb y (by simp)]
      rw [List.foldlM_cons, this]
      exact e1
    · intro x
      rw [e3, Dict.get?_set]
      by_cases hx : x ∈ xs
      · simp [hx]
      · by_cases hxy : y = x
        · subst hxy; simp [hx]
        · simp [hx, hxy, Ne.symm hxy]

/-! ## The rule -/

theorem rbmAdd_fold {I : Type} {ctx : NodeCtx RbmLabel Rat (Rat × Rat) I} {w f : RbmLabel → Rat} : ∀ (l : List RbmLabel) (s : Rat),
    (∀ i ∈ l, ctx.connections.get? i = some [[("weight", w i)]] ∧ ∃ b, ctx.activities.get? i = some (f i, b)) →
    l.foldlM (rbmAdd ctx) s = .ok (s + (l.map (fun i => w i * f i)).sum) := by
  intro l
  induction l with
  | nil => intro s _; simp [pure, Except.pure, Rat.add_zero]
  | cons i l ih =>
    intro s h
    obtain ⟨h1, b, h2⟩ := h i (by simp)
    have : rbmAdd ctx s i = .ok (s + w i * f i) := by
      simp [rbmAdd, Dict.get, h1, h2, Dict.get?_cons]
    rw [List.foldlM_cons, this]
    show l.foldlM (rbmAdd ctx) (s + w i * f i) = _
    rw [ih _ (fun j hj => h j (by simp [hj])), List.map_cons, List.sum_cons, Rat.add_assoc]

/-! ## The images -/

theorem rbmPut_fold {nv : Nat} {F : Nat → Rat} : ∀ (d : Dict RbmLabel (Rat × Rat)) (acts : List Rat), d.keys.Nodup →
    (∀ p ∈ d, ∀ n, p.1 = .v n → n < nv ∧ p.2.1 = F n) → acts.length = nv →
    ∃ acts', d.foldlM rbmPut acts = .ok acts' ∧ acts'.length = nv ∧
      ∀ n, n < nv → acts'[n]? = if RbmLabel.v n ∈ d.keys then some (F n) else acts[n]? := by
  intro d
  induction d with
  | nil => intro acts _ _ hl; exact ⟨acts, rfl, hl, fun n _ => by simp [Dict.keys]⟩
  | cons p d ih =>
    intro acts hn h hl
    have hn' : p.1 ∉ Dict.keys d ∧ (Dict.keys d).Nodup := by simpa [Dict.keys] using hn
    have hkeys : Dict.keys (p :: d) = p.1 :: Dict.keys d := rfl
    rw [hkeys]
    obtain ⟨k, q⟩ := p
    cases k with
    | h m =>
      obtain ⟨a, e1, e2, e3⟩ := ih acts hn'.2 (fun p hp => h p (by simp [hp])) hl
      refine ⟨a, e1, e2, fun n hlt => ?_⟩
      rw [e3 n hlt]
      simp
    | v m =>
      obtain ⟨hm, hq⟩ := h (.v m, q) (by simp) m rfl
      obtain ⟨a, e1, e2, e3⟩ := ih (acts.set m q.1) hn'.2 (fun p hp => h p (by simp [hp])) (by simpa using hl)
      refine ⟨a, ?_, e2, ?_⟩
      · have : rbmPut acts (.v m, q) = .ok (acts.set m q.1) := by
          simp [rbmPut, hl, hm]
        rw [List.foldlM_cons, this]
        exact e1
      · intro n hlt
        rw [e3 n hlt]
        by_cases hd : RbmLabel.v n ∈ Dict.keys d
        · simp [hd]
        · rw [if_neg hd, List.getElem?_set]
          by_cases hmn : m = n
          · subst hmn
            simp [hl, hm]
            exact hq
          · rw [if_neg hmn, if_neg]
            simp only [List.mem_cons, RbmLabel.v.injEq, not_or]
            exact ⟨fun he => hmn he.symm, hd⟩

end Verif
