import Verif.Proofs.RuleTables
/-! # Lemmas about `table_walk_through` -/

namespace Verif

theorem dict_length_keys {K V : Type} (d : Dict K V) : d.keys.length = List.length d := by simp [Dict.keys]

theorem mem_candidates (a : WalkArgs) (reduce : Bool) (t : Table) (hne : ∀ s ∈ t.keys, s ≠ []) (s : List Char) :
    s ∈ candidates a reduce t ↔ Changeable a.quiescent a.strong reduce t s := by
  have key : s ∈ candidates a reduce t ↔ (s ∈ t.keys ∧
      (if reduce then t.get? s ≠ some a.quiescent else t.get? s = some a.quiescent)) ∧
      (a.strong = true → uniform s = false) := by
    unfold candidates
    simp only
    cases a.strong <;> cases reduce <;> simp <;> grind
  rw [key]
  unfold Changeable
  constructor
  · rintro ⟨⟨hk, hv⟩, hu⟩
    obtain ⟨v, hv'⟩ := Dict.exists_get?_of_mem_keys hk
    refine ⟨⟨v, hv', fun hr => ?_, fun hr => ?_⟩, fun hst hc => ?_⟩
    · rw [hr, if_pos rfl, hv'] at hv
      intro he; exact hv (by rw [he])
    · rw [hr, if_neg (by simp), hv'] at hv
      exact Option.some.inj hv
    · have := (uniform_iff s).2 ⟨hne s hk, hc⟩
      rw [hu hst] at this
      cases this
  · rintro ⟨⟨v, hv, h1, h2⟩, hu⟩
    refine ⟨⟨Dict.mem_keys_of_get? hv, ?_⟩, fun hst => ?_⟩
    · cases reduce with
      | true => simp only [if_true, hv]; intro he; exact h1 rfl (Option.some.inj he)
      | false => simp only [Bool.false_eq_true, if_false, hv, h2 rfl]
    · cases hus : uniform s with
      | false => rfl
      | true => exact absurd ((uniform_iff s).1 hus).2 (hu hst)

theorem nodup_candidates (a : WalkArgs) (reduce : Bool) {t : Table} (h : t.keys.Nodup) :
    (candidates a reduce t).Nodup := by
  unfold candidates
  simp only
  split
  · exact (List.filter_sublist.trans List.filter_sublist).nodup h
  · exact List.filter_sublist.nodup h

theorem candidates_length_le (a : WalkArgs) (reduce : Bool) (t : Table) :
    (candidates a reduce t).length ≤ t.length := by
  rw [← dict_length_keys]
  unfold candidates
  simp only
  split
  · exact (List.filter_sublist.trans List.filter_sublist).length_le
  · exact List.filter_sublist.length_le

/-- The two assignments of one iteration. -/
def assign (iso : Bool) (t : Table) (s : List Char) (v : Int) : Table :=
  if iso then (t.set s v).set s.reverse v else t.set s v

theorem get?_assign (iso : Bool) (t : Table) (s : List Char) (v : Int) (x : List Char) :
    (assign iso t s v).get? x = if x = s ∨ (iso = true ∧ x = s.reverse) then some v else t.get? x := by
  unfold assign
  cases iso with
  | true =>
    simp only [if_true, Dict.get?_set, true_and]
    by_cases h1 : x = s.reverse
    · subst h1; simp
    · by_cases h2 : x = s
      · subst h2; rw [if_neg (fun h => h1 (by first | exact h | exact h.symm))]; simp
      · rw [if_neg (fun h => h1 (by first | exact h | exact h.symm)),
          if_neg (fun h => h2 (by first | exact h | exact h.symm)), if_neg (by rintro (h | h); exact h2 h; exact h1 h)]
  | false =>
    simp only [Bool.false_eq_true, if_false, Dict.get?_set, false_and, or_false]
    by_cases h2 : x = s
    · subst h2; simp
    · rw [if_neg (fun h => h2 (by first | exact h | exact h.symm)), if_neg h2]

theorem nodup_assign {iso : Bool} {t : Table} (h : t.keys.Nodup) (s : List Char) (v : Int) :
    (assign iso t s v).keys.Nodup := by
  unfold assign
  split
  · exact Dict.nodup_keys_set (Dict.nodup_keys_set h _ _) _ _
  · exact Dict.nodup_keys_set h _ _

theorem keys_set_of_mem {K V : Type} [DecidableEq K] {d : Dict K V} {k : K} (h : k ∈ d.keys) (v : V) :
    (d.set k v).keys = d.keys := by
  rw [Dict.keys_set]; simp [h]

theorem keys_assign {iso : Bool} {t : Table} {s : List Char} (hs : s ∈ t.keys) (hr : iso = true → s.reverse ∈ t.keys)
    (v : Int) : (assign iso t s v).keys = t.keys := by
  unfold assign
  split
  · rename_i h
    rw [keys_set_of_mem (by rw [keys_set_of_mem hs]; exact hr h), keys_set_of_mem hs]
  · rw [keys_set_of_mem hs]

theorem mem_keys_assign {iso : Bool} {t : Table} {s x : List Char} {v : Int} (h : x ∈ (assign iso t s v).keys) :
    x ∈ t.keys ∨ x = s ∨ x = s.reverse := by
  unfold assign at h
  split at h
  · rw [Dict.mem_keys_set, Dict.mem_keys_set] at h
    rcases h with h | h | h
    · exact .inr (.inr h)
    · exact .inr (.inl h)
    · exact .inl h
  · rw [Dict.mem_keys_set] at h
    rcases h with h | h
    · exact .inr (.inl h)
    · exact .inl h

/-- Setting a non-quiescent entry to quiescent increases the count, setting a quiescent entry to another state
decreases it. -/
theorem count_assign_up {iso : Bool} {t : Table} {s : List Char} {q : Int} (h : t.get? s ≠ some q) :
    t.values.count q < (assign iso t s q).values.count q := by
  have h1 := values_set_count t s q q
  have h2 := values_set_count (t.set s q) s.reverse q q
  rw [if_neg h, if_pos rfl] at h1
  rw [if_pos rfl] at h2
  unfold assign
  split
  · split at h2 <;> omega
  · omega

theorem count_assign_down {iso : Bool} {t : Table} {s : List Char} {q v : Int} (h : t.get? s = some q) (hv : v ≠ q) :
    (assign iso t s v).values.count q < t.values.count q := by
  have h1 := values_set_count t s v q
  have h2 := values_set_count (t.set s v) s.reverse v q
  simp only [if_pos h, if_neg hv] at h1 h2
  unfold assign
  split
  · split at h2 <;> omega
  · omega

theorem perturbTable_ok {a : WalkArgs} {reduce : Bool} {i : Nat} {cs : List (List Char)} {t t' : Table}
    (h : perturbTable a reduce i cs t = .ok t') :
    ∃ s v, s ∈ cs ∧ (reduce = true → v = a.quiescent) ∧
      (reduce = false → v ≠ a.quiescent ∧ 0 ≤ v ∧ v < (a.k : Int)) ∧ t' = assign a.isotropic t s v := by
  unfold perturbTable at h
  cases hc : choice (a.pickState i) cs with
  | error e => rw [hc] at h; cases h
  | ok s =>
    rw [hc] at h
    simp only at h
    cases reduce with
    | true =>
      simp only [if_true, Except.ok.injEq] at h
      exact ⟨s, a.quiescent, choice_mem hc, fun _ => rfl, (fun h => by cases h), h.symm⟩
    | false =>
      simp only [Bool.false_eq_true, if_false] at h
      cases ho : choice (a.pickOther i) (otherStates a.k a.quiescent) with
      | error e => rw [ho] at h; cases h
      | ok v =>
        rw [ho] at h
        simp only [Except.ok.injEq] at h
        have hm := mem_otherStates.1 (choice_mem ho)
        exact ⟨s, v, choice_mem hc, (fun h => by cases h), fun _ => ⟨hm.2.2, hm.1, hm.2.1⟩, h.symm⟩

/-- The candidates that remain after a change. -/
theorem candidates_assign {a : WalkArgs} {reduce : Bool} {t : Table} {s : List Char} {v : Int}
    (hnd : t.keys.Nodup) (hne : ∀ s ∈ t.keys, s ≠ []) (hs : s ∈ candidates a reduce t)
    (h1 : reduce = true → v = a.quiescent) (h2 : reduce = false → v ≠ a.quiescent) :
    (candidates a reduce (assign a.isotropic t s v)).length + 1 ≤ (candidates a reduce t).length := by
  have hsk : s ∈ t.keys := by
    obtain ⟨⟨w, hw, _⟩, _⟩ := (mem_candidates a reduce t hne s).1 hs
    exact Dict.mem_keys_of_get? hw
  have hne' : ∀ x ∈ (assign a.isotropic t s v).keys, x ≠ [] := by
    intro x hx
    rcases mem_keys_assign hx with h | rfl | rfl
    · exact hne x h
    · exact hne _ hsk
    · intro h; exact hne s hsk (by simpa using h)
  have hnot : ∀ x, (x = s ∨ (a.isotropic = true ∧ x = s.reverse)) →
      x ∉ candidates a reduce (assign a.isotropic t s v) := by
    intro x hx hm
    obtain ⟨⟨w, hw, h3, h4⟩, _⟩ := (mem_candidates _ _ _ hne' x).1 hm
    rw [get?_assign, if_pos hx] at hw
    cases hw
    cases reduce with
    | true => exact h3 rfl (h1 rfl)
    | false => exact h2 rfl (h4 rfl)
  have hnd' := nodup_candidates a reduce (nodup_assign (iso := a.isotropic) hnd s v)
  rw [← List.length_cons (a := s)]
  apply List.Nodup.length_le_of_subset
  · exact List.nodup_cons.2 ⟨hnot s (.inl rfl), hnd'⟩
  · intro x hx
    rcases List.mem_cons.1 hx with rfl | hx
    · exact hs
    · have hxs : ¬ (x = s ∨ (a.isotropic = true ∧ x = s.reverse)) := fun h => hnot x h hx
      rw [mem_candidates _ _ _ hne'] at hx
      rw [mem_candidates _ _ _ hne]
      obtain ⟨⟨w, hw, h34⟩, hu⟩ := hx
      rw [get?_assign, if_neg hxs] at hw
      exact ⟨⟨w, hw, h34⟩, hu⟩

theorem not_changeable_of_nil {a : WalkArgs} {reduce : Bool} {t : Table} (hne : ∀ s ∈ t.keys, s ≠ [])
    (h : (candidates a reduce t).length = 0) (s : List Char) : ¬ Changeable a.quiescent a.strong reduce t s := by
  intro hc
  have := (mem_candidates a reduce t hne s).2 hc
  rw [List.length_eq_zero_iff.1 h] at this
  simp at this

theorem notReached_iff (a : WalkArgs) (reduce : Bool) (lam : Rat) :
    notReached a reduce lam = true ↔ Short a.lambdaVal reduce lam := by
  unfold notReached Short; cases reduce <;> simp

/-- The loop does not run out of fuel, whatever the table. -/
theorem walkLoop_fuel {a : WalkArgs} {reduce : Bool} (K : List (List Char)) :
    ∀ (fuel attempts : Nat) (t : Table), t.keys.Nodup → (∀ x ∈ t.keys, x ∈ K ∨ x.reverse ∈ K) →
      2 * K.length + 1 ≤ fuel + attempts → 1 ≤ fuel → walkLoop a reduce fuel attempts t ≠ .error .outOfFuel := by
  intro fuel
  induction fuel with
  | zero => intro _ _ _ _ _ h; omega
  | succ fuel ih =>
    intro attempts t hnd hK hf _
    rw [walkLoop]
    cases hl : actualLambda a t with
    | error e =>
      unfold actualLambda at hl
      simp only at hl
      split at hl
      · cases hl; simp
      · cases hl
    | ok lam =>
      simp only
      split
      · rename_i hc
        split
        · simp
        · cases hp : perturbTable a reduce attempts (candidates a reduce t) t with
          | error e =>
            simp only
            intro he
            cases he
            unfold perturbTable at hp
            simp only [choice] at hp
            split at hp
            · rename_i heq; split at heq <;> cases heq; cases hp
            · split at hp
              · rename_i heq
                split at heq
                · cases heq
                · split at heq <;> cases heq; cases hp
              · cases hp
          | ok t' =>
            simp only
            obtain ⟨s, v, hs, _, _, rfl⟩ := perturbTable_ok hp
            have hsk : s ∈ t.keys := by
              unfold candidates at hs
              simp only at hs
              split at hs
              · exact (List.mem_filter.1 (List.mem_filter.1 hs).1).1
              · exact (List.mem_filter.1 hs).1
            have hlen : t.length ≤ 2 * K.length := by
              rw [← dict_length_keys]
              have : t.keys.length ≤ (K ++ K.map List.reverse).length := by
                apply List.Nodup.length_le_of_subset hnd
                intro x hx
                rw [List.mem_append]
                rcases hK x hx with h | h
                · exact .inl h
                · exact .inr (List.mem_map.2 ⟨x.reverse, h, List.reverse_reverse x⟩)
              rw [List.length_append, List.length_map] at this
              omega
            apply ih
            · exact nodup_assign hnd s v
            · intro x hx
              rcases mem_keys_assign hx with h | rfl | rfl
              · exact hK x h
              · exact hK _ hsk
              · rw [List.reverse_reverse]; exact (hK s hsk).symm
            · omega
            · have := hc.2; omega
      · simp

theorem actualLambda_eq {a : WalkArgs} {t : Table} (hlen : t.length = a.k ^ (2 * a.r + 1))
    (hk : 1 ≤ a.k) : actualLambda a t = .ok (langtonLambda a.quiescent t) := by
  have hpos : 0 < a.k ^ (2 * a.r + 1) := Nat.pow_pos hk
  unfold actualLambda
  simp only
  rw [if_neg (by omega), lambda_eq hlen]

theorem WalkTable.of_keys {a : WalkArgs} {t t' : Table} (h : WalkTable a t) (hk : t'.keys = t.keys) :
    WalkTable a t' :=
  ⟨by rw [hk]; exact h.nodup, by rw [hk]; exact h.nonempty,
   by rw [← dict_length_keys, hk, dict_length_keys]; exact h.len, by unfold MirrorClosed; rw [hk]; exact h.mirror⟩

/-- One iteration is a step of the walk. -/
theorem walkStep_assign {a : WalkArgs} {reduce : Bool} {t : Table} {s : List Char} {v : Int} (hW : WalkTable a t)
    (hs : s ∈ candidates a reduce t) (h1 : reduce = true → v = a.quiescent)
    (h2 : reduce = false → v ≠ a.quiescent ∧ 0 ≤ v ∧ v < (a.k : Int))
    (hshort : Short a.lambdaVal reduce (langtonLambda a.quiescent t)) :
    WalkStep a.lambdaVal a.k a.quiescent a.strong a.isotropic reduce t (assign a.isotropic t s v) := by
  have hch := (mem_candidates a reduce t hW.nonempty s).1 hs
  obtain ⟨⟨w, hw, h3, h4⟩, hu⟩ := hch
  have hsk := Dict.mem_keys_of_get? hw
  have hkeys := keys_assign (iso := a.isotropic) hsk (fun h => hW.mirror h s hsk) v
  have hlen : (assign a.isotropic t s v).length = t.length := by
    rw [← dict_length_keys, hkeys, dict_length_keys]
  refine ⟨hshort, ⟨s, v, ⟨⟨w, hw, h3, h4⟩, hu⟩, h1, h2, get?_assign _ _ _ _⟩, hkeys, ?_⟩
  cases reduce with
  | true =>
    have hv := h1 rfl
    subst hv
    refine lambda_lt hlen (count_assign_up ?_)
    rw [hw]; intro he; exact h3 rfl (Option.some.inj he)
  | false =>
    refine lambda_lt hlen.symm (count_assign_down ?_ (h2 rfl).1)
    rw [hw, h4 rfl]

/-- The loop performs a finite walk, and stops only when the target is reached or passed or nothing may be changed. -/
theorem walkLoop_spec {a : WalkArgs} {reduce : Bool} (hk : 1 ≤ a.k) :
    ∀ (fuel attempts : Nat) (t t' : Table), WalkTable a t →
      (candidates a reduce t).length + attempts ≤ t.length →
      walkLoop a reduce fuel attempts t = .ok t' →
      Steps (WalkStep a.lambdaVal a.k a.quiescent a.strong a.isotropic reduce) t t' ∧
      (¬ Short a.lambdaVal reduce (langtonLambda a.quiescent t') ∨
        ∀ s, ¬ Changeable a.quiescent a.strong reduce t' s) := by
  intro fuel
  induction fuel with
  | zero => intro _ _ _ _ _ h; cases h
  | succ fuel ih =>
    intro attempts t t' hW hatt h
    rw [walkLoop, actualLambda_eq hW.len hk] at h
    simp only at h
    split at h
    · rename_i hc
      have hshort : Short a.lambdaVal reduce (langtonLambda a.quiescent t) := (notReached_iff a reduce _).1 hc.1
      split at h
      · rename_i h0
        cases h
        exact ⟨.refl _, .inr (not_changeable_of_nil hW.nonempty h0)⟩
      · cases hp : perturbTable a reduce attempts (candidates a reduce t) t with
        | error e => rw [hp] at h; cases h
        | ok t1 =>
          rw [hp] at h
          simp only at h
          obtain ⟨s, v, hs, h1, h2, rfl⟩ := perturbTable_ok hp
          have hstep := walkStep_assign hW hs h1 h2 hshort
          have hW' := hW.of_keys hstep.keys
          have hlen : (assign a.isotropic t s v).length = t.length := by rw [hW'.len, hW.len]
          have hcand := candidates_assign hW.nodup hW.nonempty hs h1 (fun h => (h2 h).1)
          obtain ⟨hs1, hs2⟩ := ih (attempts + 1) _ t' hW' (by omega) h
          exact ⟨.head hstep hs1, hs2⟩
    · rename_i hc
      cases h
      refine ⟨.refl _, ?_⟩
      by_cases hatt' : attempts < t.length
      · left
        intro hshort
        exact hc ⟨(notReached_iff a reduce _).2 hshort, hatt'⟩
      · right
        exact not_changeable_of_nil hW.nonempty (by omega)

/-- With two states or more the loop does not raise. -/
theorem walkLoop_total {a : WalkArgs} {reduce : Bool} (hk : 2 ≤ a.k) :
    ∀ (fuel attempts : Nat) (t : Table), WalkTable a t → t.length + 1 ≤ fuel + attempts → 1 ≤ fuel →
      ∃ t', walkLoop a reduce fuel attempts t = .ok t' := by
  intro fuel
  induction fuel with
  | zero => intro _ _ _ _ h; omega
  | succ fuel ih =>
    intro attempts t hW hf _
    rw [walkLoop, actualLambda_eq hW.len (by omega)]
    simp only
    split
    · rename_i hc
      split
      · exact ⟨_, rfl⟩
      · rename_i h0
        have hne : candidates a reduce t ≠ [] := by
          intro h; rw [h] at h0; simp at h0
        obtain ⟨s, hs, hcs⟩ := choice_total (a.pickState attempts) hne
        have hsk : s ∈ t.keys := by
          obtain ⟨⟨w, hw, _⟩, _⟩ := (mem_candidates a reduce t hW.nonempty s).1 hs
          exact Dict.mem_keys_of_get? hw
        have hp : ∃ t1, perturbTable a reduce attempts (candidates a reduce t) t = .ok t1 := by
          unfold perturbTable
          rw [hcs]
          simp only
          cases reduce with
          | true => exact ⟨_, rfl⟩
          | false =>
            have hne : otherStates a.k a.quiescent ≠ [] := by
              intro he
              by_cases h0 : a.quiescent = 0
              · have : (1 : Int) ∈ otherStates a.k a.quiescent := mem_otherStates.2 ⟨by omega, by omega, by omega⟩
                rw [he] at this; simp at this
              · have : (0 : Int) ∈ otherStates a.k a.quiescent := mem_otherStates.2 ⟨by omega, by omega, by omega⟩
                rw [he] at this; simp at this
            obtain ⟨x, _, hx⟩ := choice_total (a.pickOther attempts) hne
            simp only [Bool.false_eq_true, if_false, hx]
            exact ⟨_, rfl⟩
        obtain ⟨t1, hp1⟩ := hp
        rw [hp1]
        simp only
        obtain ⟨s', v, hs', h1, h2, rfl⟩ := perturbTable_ok hp1
        have hsk' : s' ∈ t.keys := by
          obtain ⟨⟨w, hw, _⟩, _⟩ := (mem_candidates a reduce t hW.nonempty s').1 hs'
          exact Dict.mem_keys_of_get? hw
        have hkeys := keys_assign (iso := a.isotropic) hsk' (fun h => hW.mirror h s' hsk') v
        have hW' := hW.of_keys hkeys
        have hlen : (assign a.isotropic t s' v).length = t.length := by rw [hW'.len, hW.len]
        exact ih _ _ hW' (by omega) (by have := hc.2; omega)
    · exact ⟨_, rfl⟩

end Verif
