import Verif.Props.Utils
import Verif.Props.TuringPlot
import Verif.Spec.Dynamics
/-! # C72 for the result of a call of `evolve` -/

namespace Verif
open Spec

theorem perm_of_subset_length {α : Type} [DecidableEq α] : ∀ {ls ks : List α}, ls.Nodup → (∀ x ∈ ls, x ∈ ks) → ks.length = ls.length → ls.Perm ks := by
  intro ls
  induction ls with
  | nil =>
    intro ks _ _ h
    have : ks = [] := List.length_eq_zero_iff.1 (by simpa using h)
    rw [this]
  | cons x ls ih =>
    intro ks hn hs hl
    rw [List.nodup_cons] at hn
    have hx : x ∈ ks := hs x (by simp)
    have hlen := List.length_erase_of_mem hx
    have h1 : ls.Perm (ks.erase x) := by
      refine ih hn.2 ?_ (by rw [hlen, hl]; simp)
      intro y hy
      have hne : y ≠ x := fun he => hn.1 (he ▸ hy)
      exact (List.mem_erase_of_ne hne).2 (hs y (by simp [hy]))
    exact (h1.cons x).trans (List.perm_cons_erase hx).symm

theorem mergeSort_of_perm {α : Type} {le : α → α → Bool} (hle : TotalOrder le) {l m : List α} (h : l.Perm m) : l.mergeSort le = m.mergeSort le := by
  refine List.Perm.eq_of_pairwise (le := fun a b => le a b = true) ?_ (List.pairwise_mergeSort hle.trans hle.total l)
    (List.pairwise_mergeSort hle.trans hle.total m) ((List.mergeSort_perm _ _).trans (h.trans (List.mergeSort_perm _ _).symm))
  intro a b _ _ h1 h2
  exact hle.antisymm a b h1 h2

theorem activityRow_of {L V : Type} [DecidableEq L] {le : L → L → Bool} (hle : TotalOrder le) {d : Dict L V} {ls : List L} (hn : ls.Nodup)
    (hlen : d.length = ls.length) {f : L → V} (h : ∀ x ∈ ls, d.get? x = some (f x)) : activityRow le d = (ls.mergeSort le).map f := by
  have hp : ls.Perm d.keys := perm_of_subset_length hn (fun x hx => Dict.mem_keys_of_get? (h x hx)) (by rw [← hlen]; simp [Dict.keys])
  unfold activityRow
  rw [← mergeSort_of_perm hle hp]
  have hm : ∀ x ∈ ls.mergeSort le, d.get? x = some (f x) := fun x hx => h x ((List.mergeSort_perm _ _).mem_iff.1 hx)
  revert hm
  generalize ls.mergeSort le = ks
  intro hm
  induction ks with
  | nil => rfl
  | cons k ks ih => rw [List.filterMap_cons, hm k (by simp), List.map_cons, ← ih (fun x hx => hm x (by simp [hx]))]

/-- C72 for the result of a call that keeps the activities: one row per state, the values in the order of the labels. -/
theorem C72_run {L A V I σ κ : Type} [DecidableEq L] {cfg : Config L A V I σ κ} {res : Evolved L A V σ} {T : Nat} {ls : List L} {f : Nat → L → V}
    {le : L → L → Bool} (hle : TotalOrder le) (hn : ls.Nodup) (hne : ls ≠ []) (h : ShowsOn cfg res T ls f) :
    activitiesOverTime le ((List.range T).map (res.acts cfg)) = (List.range T).map (fun t => (ls.mergeSort le).map (f t)) := by
  have hd : ∀ t, t < T → ∃ d, res.acts cfg t = some d ∧ d ≠ [] ∧ activityRow le d = (ls.mergeSort le).map (f t) := by
    intro t ht
    obtain ⟨d, h1, h2, h3⟩ := h.2 t ht
    refine ⟨d, h1, ?_, activityRow_of hle hn h2 h3⟩
    intro he
    rw [he] at h2
    exact hne (List.length_eq_zero_iff.1 h2.symm)
  rw [activitiesOverTime_map]
  · rw [List.map_map]
    refine List.map_congr_left ?_
    intro t ht
    obtain ⟨d, h1, _, h3⟩ := hd t (List.mem_range.1 ht)
    simp only [Function.comp_apply, h1, Option.getD_some, h3]
  · intro s hs
    obtain ⟨t, ht, rfl⟩ := List.mem_map.1 hs
    obtain ⟨d, h1, h2, _⟩ := hd t (List.mem_range.1 ht)
    exact ⟨d, h1, h2⟩

theorem ShowsRun.showsOn {A V I σ κ : Type} {cfg : Config Nat A V I σ κ} {res : Evolved Nat A V σ} {T n : Nat} {f : Nat → Nat → V}
    (h : ShowsRun cfg res T n f) : ShowsOn cfg res T (List.range n) f := by
  refine ⟨h.1, ?_⟩
  intro t ht
  obtain ⟨d, h1, h2, h3⟩ := h.2 t ht
  exact ⟨d, h1, by simpa using h2, fun x hx => h3 x (by simpa using hx)⟩

/-- The order of numbers. -/
theorem natOrder : TotalOrder (fun a b : Nat => decide (a ≤ b)) :=
  ⟨by intro a b c; simp; omega, by intro a b; simp; omega, by intro a b; simp; omega⟩

/-- C72 for a run on nodes `0 … n-1`, the form in which the demos plot it. -/
theorem C72_run_nat {A V I σ κ : Type} {cfg : Config Nat A V I σ κ} {res : Evolved Nat A V σ} {T n : Nat} {f : Nat → Nat → V} (hn : 0 < n)
    (h : ShowsRun cfg res T n f) :
    activitiesOverTime (fun a b => decide (a ≤ b)) ((List.range T).map (res.acts cfg)) = (List.range T).map (fun t => (List.range n).map (f t)) := by
  rw [C72_run natOrder List.nodup_range (by intro he; have := congrArg List.length he; simp at this; omega) h.showsOn]
  congr 1
  funext t
  rw [List.mergeSort_of_pairwise]
  exact List.pairwise_iff_getElem.2 (by intro i j hi hj hij; simp; omega)

end Verif
