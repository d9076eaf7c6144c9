import Verif.Model.SmallWorld
import Verif.Spec.Fungal
import Verif.Proofs.Matrix
/-! # Lemmas about the small-world graphs -/

namespace Verif
open Spec MG

theorem nxShifted_eq {n j : Nat} (hj : j ≤ n) : nxShifted n j = (List.range n).map (fun u => (u, (u + j) % n)) := by
  unfold nxShifted
  apply List.ext_getElem
  · simp; omega
  · intro i h1 h2
    simp only [List.length_map, List.length_range] at h2
    simp only [List.getElem_zip, List.getElem_range, List.getElem_map, Prod.mk.injEq, true_and]
    rw [List.getElem_append]
    split
    · next h =>
      simp only [List.length_drop, List.length_range] at h
      rw [List.getElem_drop, List.getElem_range, Nat.mod_eq_of_lt (by omega)]; omega
    · next h =>
      simp only [List.length_drop, List.length_range] at h
      rw [List.getElem_take, List.getElem_range]
      simp only [List.length_drop, List.length_range]
      rw [show i + j = (i - (n - j)) + n by omega, Nat.add_mod_right, Nat.mod_eq_of_lt (by omega)]

theorem nxPairs_eq {n k : Nat} (hk : k ≤ n) :
    nxPairs n k = (List.range (k / 2)).flatMap (fun j => (List.range n).map (fun u => (u, (u + (j + 1)) % n))) := by
  unfold nxPairs
  rw [List.flatMap_def, List.flatMap_def]
  congr 1
  apply List.map_congr_left
  intro j hj
  rw [List.mem_range] at hj
  exact nxShifted_eq (by omega)

theorem mem_nxPairs {n k : Nat} (hk : k ≤ n) {u v : Nat} :
    (u, v) ∈ nxPairs n k ↔ u < n ∧ ∃ j, 1 ≤ j ∧ j ≤ k / 2 ∧ v = (u + j) % n := by
  rw [nxPairs_eq hk]
  simp only [List.mem_flatMap, List.mem_range, List.mem_map, Prod.mk.injEq]
  constructor
  · rintro ⟨j, hj, x, hx, rfl, rfl⟩
    exact ⟨hx, j + 1, by omega, by omega, rfl⟩
  · rintro ⟨hu, j, h1, h2, rfl⟩
    exact ⟨j - 1, by omega, u, hu, rfl, by rw [show j - 1 + 1 = j by omega]⟩

theorem add_mod_cases {n u j : Nat} (hu : u < n) (hj : j < n) :
    (u + j < n ∧ (u + j) % n = u + j) ∨ (n ≤ u + j ∧ (u + j) % n = u + j - n) := by
  by_cases h : u + j < n
  · exact Or.inl ⟨h, Nat.mod_eq_of_lt h⟩
  · refine Or.inr ⟨by omega, ?_⟩
    rw [Nat.mod_eq_sub_mod (by omega), Nat.mod_eq_of_lt (by omega)]

theorem nxPairs_once {n k : Nat} (hk : k < n) : (nxPairs n k).Pairwise (fun p q => ¬ SameLink p q) := by
  rw [nxPairs_eq (by omega), List.flatMap_def]
  rw [List.pairwise_flatten]
  refine ⟨?_, ?_⟩
  · intro l hl
    obtain ⟨j, hj, rfl⟩ := List.mem_map.1 hl
    rw [List.mem_range] at hj
    rw [List.pairwise_map]
    refine List.Pairwise.imp_of_mem ?_ List.pairwise_lt_range
    intro a b ha hb hab h
    rw [List.mem_range] at ha hb
    rcases h with h | h
    · rw [Prod.mk.injEq] at h; omega
    · simp only [Prod.mk.injEq] at h
      rcases add_mod_cases ha (show j + 1 < n by omega) with h1 | h1 <;>
      rcases add_mod_cases hb (show j + 1 < n by omega) with h2 | h2 <;> omega
  · rw [List.pairwise_map]
    refine List.Pairwise.imp_of_mem ?_ List.pairwise_lt_range
    intro i j hi hj hij p hp q hq h
    rw [List.mem_range] at hi hj
    obtain ⟨a, ha, rfl⟩ := List.mem_map.1 hp
    obtain ⟨b, hb, rfl⟩ := List.mem_map.1 hq
    rw [List.mem_range] at ha hb
    rcases h with h | h <;> simp only [Prod.mk.injEq] at h <;>
      rcases add_mod_cases ha (show i + 1 < n by omega) with h1 | h1 <;>
      rcases add_mod_cases hb (show j + 1 < n by omega) with h2 | h2 <;> omega

theorem nxHas_iff {G : List (Nat × Nat)} {u v : Nat} : nxHas G u v = true ↔ (u, v) ∈ G ∨ (v, u) ∈ G := by
  simp only [nxHas, nxSame, List.any_eq_true, Bool.or_eq_true, decide_eq_true_eq]
  constructor
  · rintro ⟨e, he, rfl | rfl⟩
    · exact Or.inl he
    · exact Or.inr he
  · rintro (h | h)
    · exact ⟨_, h, Or.inl rfl⟩
    · exact ⟨_, h, Or.inr rfl⟩

theorem nxHas_comm (G : List (Nat × Nat)) (u v : Nat) : nxHas G u v = nxHas G v u := by
  rw [Bool.eq_iff_iff, nxHas_iff, nxHas_iff]; exact Or.comm

theorem nxRing_eq {n k : Nat} (hk : k < n) : nxRing n k = nxPairs n k := by
  have key : ∀ (l G : List (Nat × Nat)), (G ++ l).Pairwise (fun p q => ¬ SameLink p q) →
      l.foldl (fun G e => nxAdd G e.1 e.2) G = G ++ l := by
    intro l
    induction l with
    | nil => intro G _; simp
    | cons e l ih =>
      intro G h
      rw [List.foldl_cons]
      have hn : nxAdd G e.1 e.2 = G ++ [e] := by
        unfold nxAdd
        rw [if_neg]
        rw [nxHas_iff]
        have := (List.pairwise_append.1 h).2.2
        rintro (h' | h')
        · exact this _ h' e (by simp) (Or.inl rfl)
        · exact this _ h' e (by simp) (Or.inr rfl)
      rw [hn, ih _ (by simpa using h)]
      simp
  exact key (nxPairs n k) [] (by simpa using nxPairs_once hk)

/-- What holds while the edges are rewired; `P` are the pairs still to be treated, `c` the number of edges that each node
owns (as first end). -/
structure Rewiring (n c : Nat) (P G : List (Nat × Nat)) : Prop where
  once : G.Pairwise (fun p q => ¬ SameLink p q)
  range : ∀ e ∈ G, e.1 < n ∧ e.2 < n ∧ e.1 ≠ e.2
  own : ∀ u, u < n → G.countP (fun e => decide (e.1 = u)) = c
  pending : ∀ p ∈ P, p ∈ G
  distinct : P.Pairwise (fun p q => ¬ SameLink p q)
  size : G.length = n * c

theorem countP_flatMap_range {n : Nat} (f : Nat → List (Nat × Nat)) (p : Nat × Nat → Bool) (h : ∀ j, j < n → (f j).countP p = 1) :
    ((List.range n).flatMap f).countP p = n := by
  induction n with
  | zero => simp
  | succ n ih =>
    rw [List.range_succ, List.flatMap_append, List.countP_append, ih (fun j hj => h j (by omega))]
    simp [h n (by omega)]

theorem countP_own_row {n u : Nat} (f : Nat → Nat) (hu : u < n) :
    ((List.range n).map (fun x => (x, f x))).countP (fun e => decide (e.1 = u)) = 1 := by
  rw [List.countP_map]
  have h : List.countP ((fun e : Nat × Nat => decide (e.1 = u)) ∘ fun x => (x, f x)) (List.range n) = (List.range n).count u := by
    rw [List.count]
    apply List.countP_congr
    intro x _
    simp
  rw [h, List.nodup_range.count, if_pos (List.mem_range.2 hu)]

theorem rewiring_start {n k : Nat} (hk : k < n) : Rewiring n (k / 2) (nxPairs n k) (nxRing n k) := by
  rw [nxRing_eq hk]
  refine ⟨nxPairs_once hk, ?_, ?_, fun _ h => h, nxPairs_once hk, ?_⟩
  · rintro ⟨u, v⟩ h
    obtain ⟨hu, j, h1, h2, rfl⟩ := (mem_nxPairs (by omega)).1 h
    refine ⟨hu, Nat.mod_lt _ (by omega), ?_⟩
    rcases add_mod_cases hu (show j < n by omega) with h3 | h3 <;> simp only [ne_eq] <;> omega
  · intro u hu
    rw [nxPairs_eq (by omega)]
    exact countP_flatMap_range _ _ (fun j _ => countP_own_row _ hu)
  · rw [nxPairs_eq (by omega)]
    simp only [List.length_flatMap, List.length_map, List.length_range, List.map_const', List.sum_replicate_nat, Nat.mul_comm]

theorem filter_out {G : List (Nat × Nat)} {u v : Nat} (h : G.Pairwise (fun p q => ¬ SameLink p q)) (hm : (u, v) ∈ G) :
    ∃ A B, G = A ++ (u, v) :: B ∧ G.filter (fun e => !nxSame e u v) = A ++ B := by
  obtain ⟨A, B, rfl⟩ := List.append_of_mem hm
  refine ⟨A, B, rfl, ?_⟩
  rw [List.pairwise_append] at h
  obtain ⟨-, h2, h3⟩ := h
  rw [List.pairwise_cons] at h2
  have h4 : ∀ e ∈ A, (!nxSame e u v) = true := by
    intro e he
    have := h3 e he (u, v) (by simp)
    simpa [nxSame, SameLink] using this
  have h5 : ∀ e ∈ B, (!nxSame e u v) = true := by
    intro e he
    have := h2.1 e he
    simp only [nxSame, Bool.not_eq_true', Bool.or_eq_false_iff, decide_eq_false_iff_not]
    refine ⟨fun hc => this (Or.inl hc.symm), fun hc => this (Or.inr ?_)⟩
    rw [hc]
  rw [List.filter_append, List.filter_cons, List.filter_eq_self.2 h4, List.filter_eq_self.2 h5]
  simp [nxSame]

theorem rewiring_skip {n c : Nat} {p : Nat × Nat} {P G : List (Nat × Nat)} (h : Rewiring n c (p :: P) G) : Rewiring n c P G :=
  ⟨h.once, h.range, h.own, fun q hq => h.pending q (by simp [hq]), (List.pairwise_cons.1 h.distinct).2, h.size⟩

theorem rewiring_replace {n c u v w : Nat} {P G : List (Nat × Nat)} (h : Rewiring n c ((u, v) :: P) G) (hw : w < n) (hwu : w ≠ u)
    (hno : nxHas G u w = false) : ∃ H, nxReplace G u v (some w) = .ok H ∧ Rewiring n c P H := by
  have hm : (u, v) ∈ G := h.pending _ (by simp)
  obtain ⟨A, B, rfl, hf⟩ := filter_out h.once hm
  have hhas : nxHas (A ++ (u, v) :: B) u v = true := nxHas_iff.2 (Or.inl hm)
  have hnot : ∀ e ∈ A ++ (u, v) :: B, ¬ SameLink e (u, w) := by
    intro e he hs
    have : nxHas (A ++ (u, v) :: B) u w = true := nxHas_iff.2 (by
      rcases hs with rfl | rfl
      · exact Or.inl he
      · exact Or.inr he)
    rw [this] at hno; cases hno
  have hno' : nxHas (A ++ B) u w = false := by
    rw [Bool.eq_false_iff]
    intro hc
    rcases nxHas_iff.1 hc with hc | hc
    · exact hnot (u, w) (by simp only [List.mem_append, List.mem_cons] at hc ⊢; grind) (Or.inl rfl)
    · exact hnot (w, u) (by simp only [List.mem_append, List.mem_cons] at hc ⊢; grind) (Or.inr rfl)
  refine ⟨A ++ B ++ [(u, w)], ?_, ?_⟩
  · show (nxRemove _ u v).map _ = _
    unfold nxRemove
    rw [if_pos hhas, hf]
    show Except.ok (nxAdd (A ++ B) u w) = _
    unfold nxAdd
    rw [hno']
    rfl
  · have hsub : List.Sublist (A ++ B) (A ++ (u, v) :: B) := List.Sublist.append_left (List.sublist_cons_self _ _) _
    have hr := h.range (u, v) hm
    refine ⟨?_, ?_, ?_, ?_, (List.pairwise_cons.1 h.distinct).2, ?_⟩
    · rw [List.pairwise_append]
      refine ⟨h.once.sublist hsub, by simp, ?_⟩
      intro a ha b hb
      rw [List.mem_singleton] at hb
      subst hb
      exact hnot a (hsub.mem ha)
    · intro e he
      rcases List.mem_append.1 he with he | he
      · exact h.range e (hsub.mem he)
      · rw [List.mem_singleton] at he
        subst he
        exact ⟨hr.1, hw, fun hc => hwu hc.symm⟩
    · intro x hx
      have := h.own x hx
      simp only [List.countP_append, List.countP_cons, List.countP_nil] at this ⊢
      omega
    · intro p hp
      have h1 := h.pending p (by simp [hp])
      have h2 := (List.pairwise_cons.1 h.distinct).1 p hp
      simp only [List.mem_append, List.mem_cons] at h1 ⊢
      rcases h1 with h1 | h1 | h1
      · exact Or.inl (Or.inl h1)
      · exact absurd (Or.inl h1.symm) h2
      · exact Or.inl (Or.inr h1)
    · have := h.size
      simp only [List.length_append, List.length_cons, List.length_nil] at this ⊢
      omega

/-- The result of the drawing loop: a new end that is allowed, or nothing. -/
theorem nxDraw_ok {n : Nat} {G : List (Nat × Nat)} {u : Nat} (ds : List Nat) (w : Nat) {o : Option Nat}
    (h : nxDraw n G u w ds = .ok o) : ∀ x, o = some x → x ∈ w :: ds ∧ x ≠ u ∧ nxHas G u x = false := by
  induction ds generalizing w with
  | nil =>
    unfold nxDraw at h
    intro x hx
    split at h
    · cases h
    · next hc =>
      cases Except.ok.inj h
      cases hx
      exact ⟨by simp, fun h => hc (Or.inl h), by simpa using fun h => hc (Or.inr h)⟩
  | cons d ds ih =>
    unfold nxDraw at h
    intro x hx
    split at h
    · split at h
      · cases Except.ok.inj h; cases hx
      · obtain ⟨h1, h2⟩ := ih d h x hx
        exact ⟨List.mem_cons_of_mem _ h1, h2⟩
    · next hc =>
      cases Except.ok.inj h
      cases hx
      exact ⟨by simp, fun h => hc (Or.inl h), by simpa using fun h => hc (Or.inr h)⟩

/-- The drawing loop raises nothing. -/
theorem nxDraw_error {n : Nat} {G : List (Nat × Nat)} {u : Nat} (ds : List Nat) (w : Nat) {e : Err}
    (h : nxDraw n G u w ds = .error e) : e = .outOfFuel ∧ ∀ x ∈ w :: ds, x = u ∨ nxHas G u x = true := by
  induction ds generalizing w with
  | nil =>
    unfold nxDraw at h
    split at h
    · next hc =>
      cases Except.error.inj h
      exact ⟨rfl, fun x hx => by rw [List.mem_singleton] at hx; subst hx; exact hc⟩
    · cases h
  | cons d ds ih =>
    unfold nxDraw at h
    split at h
    · next hc =>
      split at h
      · cases h
      · obtain ⟨h1, h2⟩ := ih d h
        refine ⟨h1, fun x hx => ?_⟩
        rcases List.mem_cons.1 hx with rfl | hx
        · exact hc
        · exact h2 x hx
    · cases h

theorem rewireAll_ok {n c : Nat} {luck : Nat × Nat → Option (Nat × List Nat)} (P : List (Nat × Nat)) {G : List (Nat × Nat)}
    (h : Rewiring n c P G) (hl : ∀ p ∈ P, ∀ w ds, luck p = some (w, ds) → ∀ x ∈ w :: ds, x < n) :
    (∃ H, nxRewireAll n luck P G = .ok H ∧ Rewiring n c [] H) ∨ nxRewireAll n luck P G = .error .outOfFuel := by
  induction P generalizing G with
  | nil => exact Or.inl ⟨G, rfl, h⟩
  | cons p P ih =>
    obtain ⟨u, v⟩ := p
    unfold nxRewireAll nxRewire
    cases hp : luck (u, v) with
    | none => exact ih (rewiring_skip h) (fun p hp => hl p (by simp [hp]))
    | some q =>
      obtain ⟨w, ds⟩ := q
      simp only
      cases hd : nxDraw n G u w ds with
      | error e =>
        right
        rw [(nxDraw_error ds w hd).1]
        rfl
      | ok o =>
        cases o with
        | none => exact ih (rewiring_skip h) (fun p hp => hl p (by simp [hp]))
        | some x =>
          obtain ⟨h1, h2, h3⟩ := nxDraw_ok ds w hd x rfl
          obtain ⟨H, e1, e2⟩ := rewiring_replace h (hl (u, v) (by simp) w ds hp x h1) h2 h3
          have : ((Except.ok (some x) : Except Err (Option Nat)).bind (nxReplace G u v)) = .ok H := e1
          rw [this]
          exact ih e2 (fun p hp => hl p (by simp [hp]))

end Verif
