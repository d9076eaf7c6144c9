import Verif.Spec.Wireworld
import Verif.Proofs.TorusCA
/-! # Steps of Wireworld -/

namespace Verif
open Spec

/-- The automaton. -/
abbrev wireCA (rows cols : Nat) (s : Nat → Nat → Int) : Nat → Nat → Nat → Int := torusCA rows cols moore8 wireNext s

theorem torusCell_lt {rows cols : Nat} (hr : 0 < rows) (hc : 0 < cols) (p : Nat × Nat) (d : Int × Int) :
    (torusCell rows cols p d).1 < rows ∧ (torusCell rows cols p d).2 < cols :=
  ⟨emod_toNat_lt _ hr, emod_toNat_lt _ hc⟩

theorem torusCell_inj {rows cols : Nat} (hr : 3 ≤ rows) (hc : 3 ≤ cols) (p : Nat × Nat) {d d' : Int × Int} (h : d ∈ moore8) (h' : d' ∈ moore8)
    (e : torusCell rows cols p d = torusCell rows cols p d') : d = d' := by
  have k1 := moore_directions.small d h
  have k2 := moore_directions.small d' h'
  have e1 := emod_offset_inj hr k1.1 k2.1 (congrArg Prod.fst e)
  have e2 := emod_offset_inj hc k1.2 k2.2 (congrArg Prod.snd e)
  exact Prod.ext e1 e2

theorem torusNbrs_count {rows cols : Nat} (s : Nat → Nat → Int) (a b : Nat) :
    (torusNbrs rows cols moore8 s a b).count 1 = moore8.countP (fun d => s (torusCell rows cols (a, b) d).1 (torusCell rows cols (a, b) d).2 == 1) := by
  rw [torusNbrs, List.count, List.countP_map]
  rfl

/-- The automaton at `t + 1` depends on the cells of the torus only. -/
theorem wireCA_succ (rows cols : Nat) (s : Nat → Nat → Int) (t a b : Nat) :
    wireCA rows cols s (t + 1) a b = wireNext (wireCA rows cols s t a b) (torusNbrs rows cols moore8 (wireCA rows cols s t) a b) := rfl

theorem picture_step {rows cols : Nat} (hr : 0 < rows) (hc : 0 < cols) {wire : List (Nat × Nat)} {e : Electrons}
    (hh : ∀ p ∈ e.heads, p ∈ wire ∧ p ∉ e.tails) (ht : ∀ p ∈ e.tails, p ∈ wire) {s : Nat → Nat → Int}
    (hs : ∀ a b, a < rows → b < cols → s a b = wirePicture wire e a b) (a b : Nat) (ha : a < rows) (hb : b < cols) :
    wireNext (s a b) (torusNbrs rows cols moore8 s a b) = wirePicture wire (e.step rows cols wire) a b := by
  have hcount : (torusNbrs rows cols moore8 s a b).count 1 = moore8.countP (fun d => e.heads.contains (torusCell rows cols (a, b) d)) := by
    rw [torusNbrs_count]
    apply List.countP_congr
    intro d _
    obtain ⟨l1, l2⟩ := torusCell_lt hr hc (a, b) d
    rw [hs _ _ l1 l2]
    unfold wirePicture
    by_cases h1 : e.heads.contains (torusCell rows cols (a, b) d) = true
    · rw [if_pos h1, h1]; decide
    · rw [if_neg h1]
      simp only [h1]
      split
      · decide
      · split <;> decide
  have hmem : (e.step rows cols wire).heads.contains (a, b) = (wire.contains (a, b) && !e.heads.contains (a, b) && !e.tails.contains (a, b) &&
      ((moore8.countP fun d => e.heads.contains (torusCell rows cols (a, b) d)) == 1 ||
        (moore8.countP fun d => e.heads.contains (torusCell rows cols (a, b) d)) == 2)) := by
    rw [Bool.eq_iff_iff]
    simp only [Electrons.step, List.contains_iff_mem, List.mem_filter, Bool.and_eq_true, Bool.not_eq_true', ← Bool.not_eq_true, and_assoc]
  have htail : (e.step rows cols wire).tails = e.heads := rfl
  rw [hs a b ha hb]
  unfold wireNext
  rw [hcount]
  unfold wirePicture
  rw [hmem, htail]
  generalize moore8.countP (fun d => e.heads.contains (torusCell rows cols (a, b) d)) = c
  by_cases h1 : e.heads.contains (a, b) = true
  · rw [h1]; simp
  · have h1' : e.heads.contains (a, b) = false := by simpa using h1
    by_cases h2 : e.tails.contains (a, b) = true
    · have hw : wire.contains (a, b) = true := List.contains_iff_mem.2 (ht _ (List.contains_iff_mem.1 h2))
      rw [h1', h2, hw]
      simp
    · have h2' : e.tails.contains (a, b) = false := by simpa using h2
      by_cases h3 : wire.contains (a, b) = true
      · rw [h1', h2', h3]
        by_cases hc : c = 1 ∨ c = 2
        · rcases hc with rfl | rfl <;> simp
        · have : ¬ ((c == 1 || c == 2) = true) := by simpa using hc
          simp [hc]
      · have h3' : wire.contains (a, b) = false := by simpa using h3
        rw [h1', h2', h3']
        simp

theorem step_disjoint {rows cols : Nat} {wire : List (Nat × Nat)} {e : Electrons} (hh : ∀ p ∈ e.heads, p ∈ wire) :
    (∀ p ∈ (e.step rows cols wire).heads, p ∈ wire ∧ p ∉ (e.step rows cols wire).tails) ∧ ∀ p ∈ (e.step rows cols wire).tails, p ∈ wire := by
  refine ⟨fun p hp => ?_, hh⟩
  simp only [Electrons.step, List.mem_filter, Bool.and_eq_true, Bool.not_eq_true'] at hp
  refine ⟨hp.1, fun h => ?_⟩
  have := hp.2.1.1
  rw [← Bool.not_eq_true, List.contains_iff_mem] at this
  exact this h

theorem picture_run {rows cols : Nat} (hr : 0 < rows) (hc : 0 < cols) {wire : List (Nat × Nat)} {e : Electrons}
    (hh : ∀ p ∈ e.heads, p ∈ wire ∧ p ∉ e.tails) (ht : ∀ p ∈ e.tails, p ∈ wire) {s : Nat → Nat → Int}
    (hs : ∀ a b, a < rows → b < cols → s a b = wirePicture wire e a b) : ∀ t : Nat,
    (∀ a b, a < rows → b < cols → wireCA rows cols s t a b = wirePicture wire (e.run rows cols wire t) a b) ∧
    (∀ p ∈ (e.run rows cols wire t).heads, p ∈ wire ∧ p ∉ (e.run rows cols wire t).tails) ∧ ∀ p ∈ (e.run rows cols wire t).tails, p ∈ wire
  | 0 => ⟨hs, hh, ht⟩
  | t + 1 => by
    obtain ⟨i1, i2, i3⟩ := picture_run hr hc hh ht hs t
    refine ⟨fun a b ha hb => picture_step hr hc i2 i3 i1 a b ha hb, ?_⟩
    exact step_disjoint (fun p hp => (i2 p hp).1)

/-- Runs that come back are periodic. -/
theorem run_back {rows cols : Nat} {wire : List (Nat × Nat)} {e : Electrons} {k p : Nat} (h : e.run rows cols wire (k + p) = e.run rows cols wire k) :
    ∀ t : Nat, k ≤ t → e.run rows cols wire (t + p) = e.run rows cols wire t := by
  intro t hkt
  induction hkt with
  | refl => exact h
  | @step m _ ih =>
    rw [show m + 1 + p = (m + p) + 1 by omega, Electrons.run, ih]
    rfl

theorem run_mod {rows cols : Nat} {wire : List (Nat × Nat)} {e : Electrons} {k p : Nat} (h : e.run rows cols wire (k + p) = e.run rows cols wire k) :
    ∀ (m j : Nat), e.run rows cols wire (k + j + p * m) = e.run rows cols wire (k + j)
  | 0, j => by rw [Nat.mul_zero, Nat.add_zero]
  | m + 1, j => by
    rw [Nat.mul_succ, ← Nat.add_assoc, run_back h _ (by omega), run_mod h m j]

/-- Index of the cell before `i` on a closed wire. -/
theorem prev_idx {n i : Nat} (hi : i < n) : (i + n - 1) % n < n ∧ ((i + n - 1) % n + 1) % n = i := by
  refine ⟨Nat.mod_lt _ (by omega), ?_⟩
  rw [Nat.mod_add_mod, show i + n - 1 + 1 = i + n by omega, Nat.add_mod_right, Nat.mod_eq_of_lt hi]

theorem signal_on {path : List (Nat × Nat)} (hn : path.Nodup) (u : Nat → Int) {i : Nat} (hi : i < path.length) :
    signalPicture path u path[i].1 path[i].2 = u i := by
  unfold signalPicture
  have : path.findIdx? (fun p => p == (path[i].1, path[i].2)) = some i := by
    rw [List.findIdx?_eq_some_iff_getElem]
    refine ⟨hi, by simp, fun j hj => ?_⟩
    simp only [beq_iff_eq]
    intro he
    have := (List.getElem_inj hn).1 he
    omega
  rw [this]

theorem signal_off {path : List (Nat × Nat)} (u : Nat → Int) {a b : Nat} (h : (a, b) ∉ path) : signalPicture path u a b = 0 := by
  unfold signalPicture
  have : path.findIdx? (fun p => p == (a, b)) = none := by
    rw [List.findIdx?_eq_none_iff]
    intro p hp
    simp only [beq_eq_false_iff_ne]
    rintro rfl
    exact h hp
  rw [this]

/-- One step of the trains. -/
theorem trains_step {rows cols : Nat} (hr : 3 ≤ rows) (hc : 3 ≤ cols) {path : List (Nat × Nat)} (hp : ClosedWire rows cols path) {u : Nat → Int}
    (hu : Trains path.length u) {s : Nat → Nat → Int} (hs : ∀ a b, a < rows → b < cols → s a b = signalPicture path u a b)
    (a b : Nat) (ha : a < rows) (hb : b < cols) :
    wireNext (s a b) (torusNbrs rows cols moore8 s a b) = signalPicture path (fun i => u ((i + path.length - 1) % path.length)) a b := by
  rw [hs a b ha hb]
  by_cases hm : (a, b) ∈ path
  · obtain ⟨i, hi, he⟩ := List.getElem_of_mem hm
    have ea : a = path[i].1 := by rw [he]
    have eb : b = path[i].2 := by rw [he]
    have eab : (a, b) = path[i] := he.symm
    rw [ea, eb, signal_on hp.nodup u hi, signal_on hp.nodup _ hi, ← ea, ← eb]
    obtain ⟨hq, hq'⟩ := prev_idx hi
    generalize hj : (i + path.length - 1) % path.length = j at hq hq' ⊢
    have hbeh := hu.behind j hq
    rw [hq'] at hbeh
    have hfr := hu.front j hq
    rw [hq'] at hfr
    unfold wireNext
    rcases hu.states i hi with h | h | h
    · rw [h]; simp [hbeh.2 h]
    · have h1 : u j ≠ 1 := fun hx => by have := hfr hx; omega
      have h2 : u j ≠ 2 := fun hx => by have := hbeh.1 hx; omega
      rw [h]
      have h3 : u j = 3 := by
        rcases hu.states j hq with hx | hx | hx
        · exact absurd hx h1
        · exact absurd hx h2
        · exact hx
      simp [h3]
    · have h2 : u j ≠ 2 := fun hx => by have := hbeh.1 hx; omega
      have hnext : u ((i + 1) % path.length) ≠ 1 := fun hx => by have := (hu.behind i hi).2 hx; omega
      rw [h, torusNbrs_count]
      have hhead : ∀ d ∈ moore8, ((s (torusCell rows cols (a, b) d).1 (torusCell rows cols (a, b) d).2 == 1) = true ↔
          (decide (torusCell rows cols (a, b) d = path[j]) && decide (u j = 1)) = true) := by
        intro d hd
        obtain ⟨l1, l2⟩ := torusCell_lt (rows := rows) (cols := cols) (by omega) (by omega) (a, b) d
        rw [hs _ _ l1 l2, Bool.and_eq_true, decide_eq_true_iff, decide_eq_true_iff, beq_iff_eq]
        constructor
        · intro hx
          by_cases hin : torusCell rows cols (a, b) d ∈ path
          · obtain ⟨m, hm', hme⟩ := List.getElem_of_mem hin
            rw [← hme] at hx ⊢
            rw [signal_on hp.nodup u hm'] at hx
            have ht := (hp.touch i m hi hm').1 ⟨d, hd, by rw [← eab]; exact hme.symm⟩
            rcases ht with ht | ht
            · rw [ht] at hx; exact absurd hx hnext
            · have : m = j := by
                rw [← hj, ht]
                have hl : 0 < path.length := by omega
                rcases Nat.lt_or_ge (m + 1) path.length with g | g
                · rw [Nat.mod_eq_of_lt g, show m + 1 + path.length - 1 = m + path.length by omega, Nat.add_mod_right, Nat.mod_eq_of_lt hm']
                · have : m + 1 = path.length := by omega
                  rw [this, Nat.mod_self, Nat.zero_add, Nat.mod_eq_of_lt (by omega)]
                  omega
              subst this
              exact ⟨rfl, hx⟩
          · rw [signal_off u (a := (torusCell rows cols (a, b) d).1) (b := (torusCell rows cols (a, b) d).2) hin] at hx
            omega
        · rintro ⟨hx, h1⟩
          rw [hx, signal_on hp.nodup u hq]
          exact h1
      rw [List.countP_congr hhead]
      by_cases h1 : u j = 1
      · have hex : ∃ d ∈ moore8, torusCell rows cols (a, b) d = path[j] := by
          have := (hp.touch i j hi hq).2 (Or.inr hq'.symm)
          rw [← eab] at this
          exact this
        obtain ⟨d, hd, hde⟩ := hex
        have hcnt : moore8.countP (fun d => decide (torusCell rows cols (a, b) d = path[j]) && decide (u j = 1)) = 1 := by
          have : moore8.countP (fun d => decide (torusCell rows cols (a, b) d = path[j]) && decide (u j = 1)) = moore8.countP (fun x => x == d) := by
            apply List.countP_congr
            intro x hx
            rw [Bool.and_eq_true, decide_eq_true_iff, decide_eq_true_iff, beq_iff_eq]
            constructor
            · rintro ⟨g, _⟩
              exact torusCell_inj hr hc (a, b) hx hd (g.trans hde.symm)
            · rintro rfl
              exact ⟨hde, h1⟩
          rw [this]
          exact (show ∀ x ∈ moore8, moore8.countP (fun y => y == x) = 1 by decide) d hd
        rw [hcnt, h1]
        simp
      · have hcnt : moore8.countP (fun d => decide (torusCell rows cols (a, b) d = path[j]) && decide (u j = 1)) = 0 := by
          rw [List.countP_eq_zero]
          intro d _
          simp [h1]
        have h3 : u j = 3 := by
          rcases hu.states j hq with hx | hx | hx
          · exact absurd hx h1
          · exact absurd hx h2
          · exact hx
        rw [hcnt, h3]
        simp
  · rw [signal_off u hm, signal_off _ hm]
    rfl

theorem trains_shift {n : Nat} {u : Nat → Int} (hu : Trains n u) : Trains n (fun i => u ((i + n - 1) % n)) := by
  have key : ∀ i, i < n → ((i + 1) % n + n - 1) % n = ((i + n - 1) % n + 1) % n := by
    intro i hi
    rw [(prev_idx hi).2]
    rcases Nat.lt_or_ge (i + 1) n with g | g
    · rw [Nat.mod_eq_of_lt g, show i + 1 + n - 1 = i + n by omega, Nat.add_mod_right, Nat.mod_eq_of_lt hi]
    · have : i + 1 = n := by omega
      rw [this, Nat.mod_self, Nat.zero_add, Nat.mod_eq_of_lt (by omega)]
      omega
  refine ⟨fun i hi => hu.states _ (prev_idx hi).1, fun i hi => ?_, fun i hi h => ?_⟩
  · have := hu.behind _ (prev_idx hi).1
    simp only [key i hi]
    exact this
  · simp only [key i hi]
    exact hu.front _ (prev_idx hi).1 h

end Verif
