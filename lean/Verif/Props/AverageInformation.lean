import Verif.Props.Information
/-! # C150: what the averages over the nodes say about a trajectory (`analysis.py`)

`average_node_entropy` and `average_mutual_information` join the states of a node over time into one string.  If every
state is written with one character and different states are written differently, the averages speak about the states
themselves; C66 and C68 state what happens otherwise. -/

namespace Verif

section
variable {α : Type}

/-- Every state that occurs is written with one character, and different states are written differently. -/
def Spec.OneCharacter (str : α → List Char) (activities : List (List α)) : Prop :=
  (∀ r ∈ activities, ∀ a ∈ r, (str a).length = 1)
    ∧ ∀ r ∈ activities, ∀ a ∈ r, ∀ r' ∈ activities, ∀ b ∈ r', str a = str b → a = b

/-- The states of node `i` over time. -/
def Spec.history (activities : List (List α)) (i : Nat) : List (Option α) := activities.map (·[i]?)

/-- The character with which a state is written. -/
private def chr (str : α → List Char) (o : Option α) : Char := ((o.map str).getD []).headD ' '

private theorem column_eq {str : α → List Char} {activities : List (List α)} {w : Nat}
    (hw : ∀ r ∈ activities, r.length = w) (h1 : ∀ r ∈ activities, ∀ a ∈ r, (str a).length = 1) {i : Nat} (hi : i < w) :
    Spec.column str activities i = (Spec.history activities i).map (chr str) := by
  induction activities with
  | nil => rfl
  | cons row rows ih =>
    have hr : i < row.length := by rw [hw row (by simp)]; exact hi
    have := ih (fun r h => hw r (by simp [h])) (fun r h => h1 r (by simp [h]))
    simp only [Spec.column, Spec.history, List.flatMap_cons, List.map_cons] at this ⊢
    rw [this]
    have hl := h1 row (by simp) row[i] (List.getElem_mem hr)
    have h2 : (row[i]?.map str).getD [] = [chr str row[i]?] := by
      rw [List.getElem?_eq_getElem hr]
      match hs : str row[i], hl with
      | [c], _ => simp [chr, hs]
    rw [h2]; rfl

private theorem chr_inj {str : α → List Char} {activities : List (List α)} {w : Nat}
    (hw : ∀ r ∈ activities, r.length = w) (h1 : Spec.OneCharacter str activities) {i : Nat} (hi : i < w) :
    ∀ a ∈ Spec.history activities i, ∀ b ∈ Spec.history activities i, chr str a = chr str b → a = b := by
  intro a ha b hb h
  obtain ⟨r, hr, rfl⟩ := List.mem_map.mp ha
  obtain ⟨r', hr', rfl⟩ := List.mem_map.mp hb
  have hl : i < r.length := by rw [hw r hr]; exact hi
  have hl' : i < r'.length := by rw [hw r' hr']; exact hi
  simp only [List.getElem?_eq_getElem hl, List.getElem?_eq_getElem hl'] at h ⊢
  congr 1
  apply h1.2 r hr _ (List.getElem_mem hl) r' hr' _ (List.getElem_mem hl')
  have ha1 := h1.1 r hr _ (List.getElem_mem hl)
  have hb1 := h1.1 r' hr' _ (List.getElem_mem hl')
  match hs : str r[i], ha1, hs' : str r'[i], hb1 with
  | [c], _, [c'], _ => simpa [chr, hs, hs'] using h

variable [DecidableEq α]

/-- **C150.** The average node entropy is the mean of the entropies of what the nodes do over time. -/
theorem C150_states (str : α → List Char) (activities : List (List α)) (w : Nat) (hne : activities ≠ [])
    (hw : ∀ r ∈ activities, r.length = w) (h0 : 0 < w) (h1 : Spec.OneCharacter str activities) :
    averageNodeEntropy str activities
      = .ok (((List.range w).map (fun i => shannonEntropy (Spec.history activities i))).sum / w) := by
  rw [C66_average str activities w hne hw h0]
  congr 3
  apply List.map_congr_left
  intro i hi
  have hi := List.mem_range.mp hi
  exact entropy_congr (chr str) (by rw [column_eq hw h1.1 hi]) (chr_inj hw h1 hi)

private theorem sum_nonneg_zero {l : List ℝ} (h : ∀ x ∈ l, 0 ≤ x) : l.sum = 0 ↔ ∀ x ∈ l, x = 0 := by
  induction l with
  | nil => simp
  | cons x xs ih =>
    have hx := h x (by simp)
    have hs : 0 ≤ xs.sum := List.sum_nonneg (fun y hy => h y (by simp [hy]))
    have ih := ih (fun y hy => h y (by simp [hy]))
    rw [List.sum_cons]
    constructor
    · intro he
      have hx0 : x = 0 := by linarith
      have hs0 : xs.sum = 0 := by linarith
      intro y hy
      rcases List.mem_cons.mp hy with rfl | hy
      · exact hx0
      · exact ih.mp hs0 y hy
    · intro he
      rw [he x (by simp), ih.mpr (fun y hy => he y (by simp [hy]))]; ring

/-- **C150.** The average node entropy is 0 exactly if nothing ever changes. -/
theorem C150_zero_iff (str : α → List Char) (activities : List (List α)) (w : Nat) (hne : activities ≠ [])
    (hw : ∀ r ∈ activities, r.length = w) (h0 : 0 < w) (h1 : Spec.OneCharacter str activities) :
    averageNodeEntropy str activities = .ok 0 ↔ ∀ r ∈ activities, ∀ r' ∈ activities, r = r' := by
  rw [C150_states str activities w hne hw h0 h1]
  have hw0 : (w : ℝ) ≠ 0 := by exact_mod_cast (show w ≠ 0 by omega)
  rw [Except.ok.injEq, div_eq_zero_iff, or_iff_left hw0, sum_nonneg_zero (by
    intro x hx
    obtain ⟨i, _, rfl⟩ := List.mem_map.mp hx
    exact entropy_nonneg _)]
  constructor
  · intro h r hr r' hr'
    apply List.ext_getElem?
    intro i
    by_cases hi : i < w
    · have := h _ (List.mem_map.mpr ⟨i, List.mem_range.mpr hi, rfl⟩)
      rw [entropy_zero] at this
      exact this _ (List.mem_map.mpr ⟨r, hr, rfl⟩) _ (List.mem_map.mpr ⟨r', hr', rfl⟩)
    · rw [List.getElem?_eq_none (by rw [hw r hr]; omega), List.getElem?_eq_none (by rw [hw r' hr']; omega)]
  · intro h x hx
    obtain ⟨i, _, rfl⟩ := List.mem_map.mp hx
    rw [entropy_zero]
    intro a ha b hb
    obtain ⟨r, hr, rfl⟩ := List.mem_map.mp ha
    obtain ⟨r', hr', rfl⟩ := List.mem_map.mp hb
    rw [h r hr r' hr']

private theorem sum_le_const {l : List ℝ} {c : ℝ} (h : ∀ x ∈ l, x ≤ c) : l.sum ≤ l.length * c := by
  induction l with
  | nil => simp
  | cons x xs ih =>
    have := ih (fun y hy => h y (by simp [hy]))
    have hx := h x (by simp)
    rw [List.sum_cons, List.length_cons]; push_cast; linarith

/-- **C150.** With `k` states the average node entropy is between 0 and the binary logarithm of `k`. -/
theorem C150_bounds (str : α → List Char) (activities : List (List α)) (w : Nat) (hne : activities ≠ [])
    (hw : ∀ r ∈ activities, r.length = w) (h0 : 0 < w) (h1 : Spec.OneCharacter str activities) (states : Finset α)
    (hs : ∀ r ∈ activities, ∀ a ∈ r, a ∈ states) :
    ∃ h, averageNodeEntropy str activities = .ok h ∧ 0 ≤ h ∧ h ≤ Real.logb 2 states.card := by
  refine ⟨_, C150_states str activities w hne hw h0 h1, ?_, ?_⟩
  · apply div_nonneg _ (Nat.cast_nonneg w)
    apply List.sum_nonneg
    intro x hx
    obtain ⟨i, _, rfl⟩ := List.mem_map.mp hx
    exact entropy_nonneg _
  · have hw0 : (0 : ℝ) < w := by exact_mod_cast h0
    rw [div_le_iff₀ hw0]
    have := sum_le_const (l := (List.range w).map (fun i => shannonEntropy (Spec.history activities i)))
      (c := Real.logb 2 states.card) (by
        intro x hx
        obtain ⟨i, hi, rfl⟩ := List.mem_map.mp hx
        have hi := List.mem_range.mp hi
        have hne' : Spec.history activities i ≠ [] := by simpa [Spec.history] using hne
        refine (C66_bounds _ hne').2.trans ?_
        have hsub : (Spec.history activities i).toFinset ⊆ states.map ⟨some, Option.some_injective α⟩ := by
          intro o ho
          obtain ⟨r, hr, rfl⟩ := List.mem_map.mp (List.mem_toFinset.mp ho)
          have hl : i < r.length := by rw [hw r hr]; exact hi
          rw [Finset.mem_map]
          exact ⟨r[i], hs r hr _ (List.getElem_mem hl), (List.getElem?_eq_getElem hl).symm⟩
        have hc := Finset.card_le_card hsub
        rw [Finset.card_map] at hc
        have hpos : 0 < (Spec.history activities i).toFinset.card := by
          rw [Finset.card_pos]
          obtain ⟨a, ha⟩ := List.exists_mem_of_ne_nil _ hne'
          exact ⟨a, List.mem_toFinset.mpr ha⟩
        apply Real.logb_le_logb_of_le (by norm_num) (by exact_mod_cast hpos)
        exact_mod_cast hc)
    rw [List.length_map, List.length_range] at this
    linarith

omit [DecidableEq α] in
/-- **C150.** The average node entropy does not depend on the order of the timesteps, however the states are written. -/
theorem C150_order (str : α → List Char) (activities activities' : List (List α)) (w : Nat) (hne : activities ≠ [])
    (hw : ∀ r ∈ activities, r.length = w) (h0 : 0 < w) (hp : activities'.Perm activities) :
    averageNodeEntropy str activities' = averageNodeEntropy str activities := by
  have hne' : activities' ≠ [] := by
    rintro rfl
    exact hne hp.nil_eq.symm
  rw [C66_average str activities w hne hw h0,
    C66_average str activities' w hne' (fun r h => hw r (hp.mem_iff.mp h)) h0]
  congr 3
  apply List.map_congr_left
  intro i _
  exact entropy_congr id (by rw [List.map_id]; exact hp.flatMap_right _) (fun _ _ _ _ h => h)

/-! ## Mutual information -/

omit [DecidableEq α] in
private theorem length_column {str : α → List Char} {activities : List (List α)} {w : Nat}
    (hw : ∀ r ∈ activities, r.length = w) (h1 : ∀ r ∈ activities, ∀ a ∈ r, (str a).length = 1) {i : Nat} (hi : i < w) :
    (Spec.column str activities i).length = activities.length := by
  rw [column_eq hw h1 hi, List.length_map, Spec.history, List.length_map]

private theorem info_eq {X Y xs ys : List Char} (hl : X.length = Y.length) (hx : Spec.Enumerates xs X)
    (hy : Spec.Enumerates ys Y) :
    mutualInformation xs ys X Y = .ok (shannonEntropy X + shannonEntropy Y - shannonEntropy (X.zip Y)) := by
  rw [mutualInformation, jointEntropy_eq hl hx.1 hx.2 hy.1 hy.2]

/-- The mutual information of what a node does up to `d` timesteps before the end and what it does `d` later. -/
noncomputable def Spec.delayed (s : List (Option α)) (d : Nat) : ℝ :=
  shannonEntropy (s.take (s.length - d)) + shannonEntropy (s.drop d) - shannonEntropy ((s.take (s.length - d)).zip (s.drop d))

/-- **C150.** The average mutual information is the mean, over the nodes, of the mutual information between what the node
does and what it does `d` timesteps later. -/
theorem C150_delayed (str : α → List Char) (order : List Char → List Char) (horder : ∀ s, Spec.Enumerates (order s) s)
    (activities : List (List α)) (w d : Nat) (hne : activities ≠ []) (hw : ∀ r ∈ activities, r.length = w) (h0 : 0 < d)
    (hd : d < w) (h1 : Spec.OneCharacter str activities) :
    averageMutualInformation str order activities d
      = .ok (((List.range w).map (fun i => Spec.delayed (Spec.history activities i) d)).sum / w) := by
  obtain ⟨ms, he, hl, hm⟩ := C68_value str order horder activities d w hw hne h0 hd
  rw [he]
  congr 3
  apply List.ext_getElem?
  intro i
  by_cases hi : i < w
  · obtain ⟨m, h2, h3⟩ := hm i hi
    rw [h2, List.getElem?_map, List.getElem?_range hi, Option.map_some]
    congr 1
    simp only [] at h3
    have hlen : ((Spec.column str activities i).take ((Spec.column str activities i).length - d)).length
        = ((Spec.column str activities i).drop d).length := by simp
    rw [info_eq hlen (horder _) (horder _), Except.ok.injEq] at h3
    rw [← h3, Spec.delayed]
    have hinj := chr_inj hw h1 hi
    have hc := column_eq hw h1.1 hi
    generalize Spec.history activities i = s at hinj hc ⊢
    rw [hc, List.length_map, ← List.map_take, ← List.map_drop, List.zip_map]
    congr 1
    · congr 1
      · exact (entropy_congr (chr str) (List.Perm.refl _) (fun a ha b hb =>
          hinj a (List.mem_of_mem_take ha) b (List.mem_of_mem_take hb))).symm ▸ rfl
      · exact (entropy_congr (chr str) (List.Perm.refl _) (fun a ha b hb =>
          hinj a (List.mem_of_mem_drop ha) b (List.mem_of_mem_drop hb))).symm ▸ rfl
    · refine entropy_congr (Prod.map (chr str) (chr str)) (List.Perm.refl _) ?_
      rintro ⟨a, b⟩ hab ⟨a', b'⟩ hab' h
      have h := Prod.mk.inj h
      have m := List.of_mem_zip hab
      have m' := List.of_mem_zip hab'
      rw [hinj a (List.mem_of_mem_take m.1) a' (List.mem_of_mem_take m'.1) h.1,
        hinj b (List.mem_of_mem_drop m.2) b' (List.mem_of_mem_drop m'.2) h.2]
  · rw [List.getElem?_eq_none (by omega), List.getElem?_eq_none (by simp; omega)]

private theorem delayed_reverse (s : List (Option α)) (d : Nat) : Spec.delayed s.reverse d = Spec.delayed s d := by
  unfold Spec.delayed
  have e1 : s.reverse.take (s.reverse.length - d) = (s.drop d).reverse := by
    rw [List.length_reverse, List.take_reverse]
    by_cases h : d ≤ s.length
    · rw [show s.length - (s.length - d) = d by omega]
    · rw [List.drop_eq_nil_of_le (by omega), List.drop_eq_nil_of_le (by omega)]
  have e2 : s.reverse.drop d = (s.take (s.length - d)).reverse := by rw [List.drop_reverse]
  have hz : (s.drop d).reverse.zip (s.take (s.length - d)).reverse = ((s.drop d).zip (s.take (s.length - d))).reverse := by
    exact (List.reverse_zipWith (f := Prod.mk) (by simp)).symm
  have hperm : ∀ {β : Type} [DecidableEq β] (l : List β), shannonEntropy l.reverse = shannonEntropy l := fun l =>
    entropy_congr id (by rw [List.map_id]; exact List.reverse_perm l) (fun _ _ _ _ h => h)
  rw [e1, e2, hz, hperm, hperm, hperm]
  have : shannonEntropy ((s.drop d).zip (s.take (s.length - d))) = shannonEntropy ((s.take (s.length - d)).zip (s.drop d)) := by
    rw [← List.zip_swap]; exact entropy_swap _
  rw [this]; ring

/-- **C150.** Run backwards, a trajectory has the same average mutual information. -/
theorem C150_reverse (str : α → List Char) (order : List Char → List Char) (horder : ∀ s, Spec.Enumerates (order s) s)
    (activities : List (List α)) (w d : Nat) (hne : activities ≠ []) (hw : ∀ r ∈ activities, r.length = w) (h0 : 0 < d)
    (hd : d < w) (h1 : Spec.OneCharacter str activities) :
    averageMutualInformation str order activities.reverse d = averageMutualInformation str order activities d := by
  rw [C150_delayed str order horder activities w d hne hw h0 hd h1,
    C150_delayed str order horder activities.reverse w d (by simpa using hne) (by simpa using hw) h0 hd
      (by simpa [Spec.OneCharacter] using h1)]
  congr 3
  apply List.map_congr_left
  intro i _
  rw [← delayed_reverse (Spec.history activities i)]
  simp [Spec.history]

omit [DecidableEq α] in
private theorem history_take (activities : List (List α)) (n i : Nat) :
    Spec.history (activities.take n) i = (Spec.history activities i).take n := by
  simp [Spec.history, List.map_take]

omit [DecidableEq α] in
private theorem history_drop (activities : List (List α)) (n i : Nat) :
    Spec.history (activities.drop n) i = (Spec.history activities i).drop n := by
  simp [Spec.history, List.map_drop]

private theorem sum_le_sum' {l : List Nat} {f g : Nat → ℝ} (h : ∀ i ∈ l, f i ≤ g i) : (l.map f).sum ≤ (l.map g).sum := by
  induction l with
  | nil => simp
  | cons x xs ih =>
    have := ih (fun y hy => h y (by simp [hy]))
    have hx := h x (by simp)
    simp only [List.map_cons, List.sum_cons]; linarith

/-- **C150.** The average mutual information is not negative, and at most the average node entropy of the timesteps that
have a successor `d` later, and of those that have a predecessor `d` before. -/
theorem C150_between (str : α → List Char) (order : List Char → List Char) (horder : ∀ s, Spec.Enumerates (order s) s)
    (activities : List (List α)) (w d : Nat) (hw : ∀ r ∈ activities, r.length = w) (h0 : 0 < d)
    (hd : d < w) (hT : d < activities.length) (h1 : Spec.OneCharacter str activities) :
    ∃ m before after, averageMutualInformation str order activities d = .ok m
      ∧ averageNodeEntropy str (activities.take (activities.length - d)) = .ok before
      ∧ averageNodeEntropy str (activities.drop d) = .ok after
      ∧ 0 ≤ m ∧ m ≤ before ∧ m ≤ after := by
  have hne : activities ≠ [] := by rintro rfl; simp at hT
  have sub1 : ∀ r ∈ activities.take (activities.length - d), r ∈ activities := fun r h => List.mem_of_mem_take h
  have sub2 : ∀ r ∈ activities.drop d, r ∈ activities := fun r h => List.mem_of_mem_drop h
  have ne1 : activities.take (activities.length - d) ≠ [] := by
    intro h; have := congrArg List.length h; simp at this; omega
  have ne2 : activities.drop d ≠ [] := by
    intro h; have := congrArg List.length h; simp at this; omega
  refine ⟨_, _, _, C150_delayed str order horder activities w d hne hw h0 hd h1,
    C150_states str _ w ne1 (fun r h => hw r (sub1 r h)) (by omega)
      ⟨fun r h => h1.1 r (sub1 r h), fun r h a ha r' h' => h1.2 r (sub1 r h) a ha r' (sub1 r' h')⟩,
    C150_states str _ w ne2 (fun r h => hw r (sub2 r h)) (by omega)
      ⟨fun r h => h1.1 r (sub2 r h), fun r h a ha r' h' => h1.2 r (sub2 r h) a ha r' (sub2 r' h')⟩, ?_, ?_, ?_⟩
  · apply div_nonneg _ (Nat.cast_nonneg w)
    apply List.sum_nonneg
    intro x hx
    obtain ⟨i, _, rfl⟩ := List.mem_map.mp hx
    have hl : ((Spec.history activities i).take ((Spec.history activities i).length - d)).length
      = ((Spec.history activities i).drop d).length := by simp
    have := entropy_subadditive (((Spec.history activities i).take ((Spec.history activities i).length - d)).zip
      ((Spec.history activities i).drop d))
    rw [map_fst_zip hl, map_snd_zip hl] at this
    unfold Spec.delayed; linarith
  · apply div_le_div_of_nonneg_right _ (Nat.cast_nonneg w)
    apply sum_le_sum'
    intro i _
    have hl : ((Spec.history activities i).take ((Spec.history activities i).length - d)).length
      = ((Spec.history activities i).drop d).length := by simp
    have := entropy_snd_le (((Spec.history activities i).take ((Spec.history activities i).length - d)).zip
      ((Spec.history activities i).drop d))
    rw [map_snd_zip hl] at this
    have hlen : (Spec.history activities i).length = activities.length := by simp [Spec.history]
    rw [history_take, ← hlen]
    unfold Spec.delayed; linarith
  · apply div_le_div_of_nonneg_right _ (Nat.cast_nonneg w)
    apply sum_le_sum'
    intro i _
    have hl : ((Spec.history activities i).take ((Spec.history activities i).length - d)).length
      = ((Spec.history activities i).drop d).length := by simp
    have := entropy_fst_le (((Spec.history activities i).take ((Spec.history activities i).length - d)).zip
      ((Spec.history activities i).drop d))
    rw [map_fst_zip hl] at this
    rw [history_drop]
    unfold Spec.delayed; linarith

/-- **C150.** If the trajectory repeats itself every `d` timesteps, the average mutual information at distance `d` is the
whole average node entropy: what happens `d` timesteps later is known. -/
theorem C150_periodic (str : α → List Char) (order : List Char → List Char) (horder : ∀ s, Spec.Enumerates (order s) s)
    (activities : List (List α)) (w d : Nat) (hw : ∀ r ∈ activities, r.length = w) (h0 : 0 < d)
    (hd : d < w) (hT : d < activities.length) (h1 : Spec.OneCharacter str activities)
    (hp : ∀ t, t + d < activities.length → activities[t + d]? = activities[t]?) :
    averageMutualInformation str order activities d
      = averageNodeEntropy str (activities.take (activities.length - d)) := by
  have hne : activities ≠ [] := by rintro rfl; simp at hT
  have sub1 : ∀ r ∈ activities.take (activities.length - d), r ∈ activities := fun r h => List.mem_of_mem_take h
  have ne1 : activities.take (activities.length - d) ≠ [] := by
    intro h; have := congrArg List.length h; simp at this; omega
  have same : activities.drop d = activities.take (activities.length - d) := by
    apply List.ext_getElem?
    intro t
    rw [List.getElem?_drop, List.getElem?_take, Nat.add_comm d t]
    by_cases ht : t + d < activities.length
    · rw [if_pos (by omega), hp t ht]
    · rw [if_neg (by omega), List.getElem?_eq_none (by omega)]
  rw [C150_delayed str order horder activities w d hne hw h0 hd h1,
    C150_states str _ w ne1 (fun r h => hw r (sub1 r h)) (by omega)
      ⟨fun r h => h1.1 r (sub1 r h), fun r h a ha r' h' => h1.2 r (sub1 r h) a ha r' (sub1 r' h')⟩]
  congr 3
  apply List.map_congr_left
  intro i _
  have hlen : (Spec.history activities i).length = activities.length := by simp [Spec.history]
  have hz : ∀ s : List (Option α), shannonEntropy (s.zip s) = shannonEntropy s := fun s =>
    entropy_congr (fun a => (a, a)) (by rw [zip_self]) (fun _ _ _ _ h => (Prod.mk.inj h).1)
  rw [Spec.delayed, hlen, ← history_take, ← history_drop, same, hz]
  ring

end

/-! ## A trajectory -/

namespace Ex

/-- States 0 and 1 written as the characters 0 and 1. -/
def digit (b : Bool) : List Char := [if b then '1' else '0']

/-- Three nodes over four timesteps: the first one blinks, the second one stays on, the third one blinks the other way. -/
def blinking : List (List Bool) := [[true, true, false], [false, true, true], [true, true, false], [false, true, true]]

end Ex

theorem Ex.blinking_one : Spec.OneCharacter Ex.digit Ex.blinking :=
  ⟨fun _ _ _ _ => rfl, fun _ _ a _ _ _ b _ h => by revert h; cases a <;> cases b <;> decide⟩

/-- The hypotheses are met, with the distance 2 the trajectory repeats itself, and the entropy is not 0. -/
example : Ex.blinking ≠ [] ∧ (∀ r ∈ Ex.blinking, r.length = 3) ∧ 2 < Ex.blinking.length
    ∧ (∀ t, t + 2 < Ex.blinking.length → Ex.blinking[t + 2]? = Ex.blinking[t]?)
    ∧ averageNodeEntropy Ex.digit Ex.blinking ≠ .ok 0 := by
  refine ⟨by decide, by decide, by decide, ?_, ?_⟩
  · intro t ht
    have ht : t < 2 := by simp [Ex.blinking] at ht; omega
    match t, ht with
    | 0, _ => rfl
    | 1, _ => rfl
  · rw [Ne, C150_zero_iff Ex.digit Ex.blinking 3 (by decide) (by decide) (by decide) Ex.blinking_one]
    decide

/-- A different order of the timesteps. -/
example : (Ex.blinking.reverse).Perm Ex.blinking ∧ Ex.blinking.reverse ≠ Ex.blinking := by decide

end Verif
