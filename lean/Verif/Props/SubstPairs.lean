import Verif.Proofs.SubstPairs
/-! # Property C145: the demos of substitution systems with keys of two and three symbols -/

namespace Verif
open Spec
section
variable {C V A I κ : Type} [DecidableEq C] [DecidableEq V] [DecidableEq κ]

/-- C145: the run of a new system whose rules have a replacement for every key over an alphabet that the replacements do not leave: no
exception is raised, and every row is the word rewritten so far, as long as it is not empty. -/
theorem C145_run {cfg : Config Nat A V I SubstState κ} {str : V → List C} {dtype : C → Except Err V}
    {axiom_ : List V} {rules : Dict (List C) (List C)} {constants : List (List C)} {sys : SubstSystem C A}
    (hsys : substInit axiom_ rules constants = .ok sys) (hsize : 1 ≤ sys.size) {f : List V → List V} {P : V → Prop}
    (hsub : ∀ k, k.length = sys.size → (∀ c ∈ k, P c) →
      replacement str dtype (fun k => if k ∈ constants then some k else rules.get? k) k = .ok (f k))
    (hP : ∀ k, k.length = sys.size → (∀ c ∈ k, P c) → ∀ d ∈ f k, P d) (hw : ∀ c ∈ axiom_, P c) {T : Nat}
    (hc : SubstConfig cfg str dtype sys.rules sys.size T) (hT : 1 ≤ T) {r : Nat} {wd : World Nat A SubstState}
    (hr : wd.heap[r]? = some sys.network) (hu : wd.user = sys.state) {fuel : Nat} (hf : T ≤ fuel) :
    ∃ res, evolve fuel cfg (some (.list axiom_)) r wd = .ok res ∧ res.states.length = T ∧
      ∀ t, t < T → (slides sys.size f axiom_ t = [] → res.acts cfg t = none) ∧
        (slides sys.size f axiom_ t ≠ [] → ∃ d, res.acts cfg t = some d ∧ ReadsWord d (slides sys.size f axiom_ t)) := by
  have hwords := words_slides hsize hsub hP hw
  have hrun := C54_run hsys hc hT hr hu hf
  rw [hwords] at hrun
  obtain ⟨res, h1, h2, h3⟩ := hrun
  refine ⟨res, h1, h2, fun t ht => ?_⟩
  obtain ⟨w, h4, h5⟩ := h3 t ht
  rw [hwords t] at h4
  cases h4
  rcases h5 with ⟨h, h'⟩ | ⟨h, h'⟩
  · exact ⟨fun _ => h', fun hne => absurd h hne⟩
  · exact ⟨fun he => absurd he h, fun _ => h'⟩

end
section
variable {A I κ : Type} [DecidableEq κ]

/-- C145, the third and sixth demo: the words are 1221, 21221, 121221, 21121221, 121121221 and so on: every second timestep a block 112 is
added in front of the last four symbols. -/
theorem C145_demo3 {cfg : Config Nat A Nat I SubstState κ} {sys : SubstSystem Char A}
    (hsys : substInit [1, 2, 2, 1] demo3Rules [] = .ok sys) {T : Nat} (hc : SubstConfig cfg natStr natDtype sys.rules sys.size T)
    (hT : 1 ≤ T) {r : Nat} {wd : World Nat A SubstState} (hr : wd.heap[r]? = some sys.network) (hu : wd.user = sys.state)
    {fuel : Nat} (hf : T ≤ fuel) :
    ∃ res, evolve fuel cfg (some (.list [1, 2, 2, 1])) r wd = .ok res ∧ res.states.length = T ∧
      ∀ t, t < T → ∃ d, res.acts cfg t = some d ∧ ReadsWord d (demo3Word t) := by
  have hs : sys.size = 2 := by cases hsys; rfl
  obtain ⟨res, h1, h2, h3⟩ := C145_run hsys (by omega) (f := demo3Step) (P := Sym12) (by rw [hs]; exact demo3_sub)
    (by rw [hs]; exact demo3_closed) (by unfold Sym12; simp) hc hT hr hu hf
  refine ⟨res, h1, h2, fun t ht => ?_⟩
  have h4 := (h3 t ht).2
  rw [hs, demo3_words] at h4
  refine h4 ?_
  unfold demo3Word
  split
  · simp
  · split <;> simp

/-- C145, the fourth demo: the right end of the word goes through 221, 222, 212, 223, 211; what stands to its left consists of 1s and 3s and
grows by three symbols every five timesteps. -/
theorem C145_demo4 {cfg : Config Nat A Nat I SubstState κ} {sys : SubstSystem Char A}
    (hsys : substInit [1, 2, 2, 1] demo4Rules [] = .ok sys) {T : Nat} (hc : SubstConfig cfg natStr natDtype sys.rules sys.size T)
    (hT : 1 ≤ T) {r : Nat} {wd : World Nat A SubstState} (hr : wd.heap[r]? = some sys.network) (hu : wd.user = sys.state)
    {fuel : Nat} (hf : T ≤ fuel) :
    ∃ res, evolve fuel cfg (some (.list [1, 2, 2, 1])) r wd = .ok res ∧ res.states.length = T ∧
      ∀ t, t < T → ∃ d u, res.acts cfg t = some d ∧
        ReadsWord d (u ++ [[2, 2, 1], [2, 2, 2], [2, 1, 2], [2, 2, 3], [2, 1, 1]].getD (t % 5) []) ∧
        u.length = 3 * (t / 5) + [1, 2, 3, 3, 4].getD (t % 5) 0 ∧ ∀ c ∈ u, c = 1 ∨ c = 3 := by
  have hs : sys.size = 2 := by cases hsys; rfl
  obtain ⟨res, h1, h2, h3⟩ := C145_run hsys (by omega) (f := demo4Step) (P := Sym123) (by rw [hs]; exact demo4_sub)
    (by rw [hs]; exact demo4_closed) (by unfold Sym123; simp) hc hT hr hu hf
  refine ⟨res, h1, h2, fun t ht => ?_⟩
  have h4 := (h3 t ht).2
  rw [hs] at h4
  obtain ⟨u, e1, e2, e3⟩ := demo4_words t
  obtain ⟨d, h5, h6⟩ := h4 (by
    intro h
    rw [h] at e1
    obtain ⟨hu, _⟩ := List.append_eq_nil_iff.1 e1.symm
    subst hu
    have : t % 5 = 0 ∨ t % 5 = 1 ∨ t % 5 = 2 ∨ t % 5 = 3 ∨ t % 5 = 4 := by omega
    rcases this with e | e | e | e | e <;> rw [e] at e2 <;> simp [demo4Lefts] at e2)
  exact ⟨d, u, h5, by rw [e1] at h6; exact h6, e2, e3⟩

/-- C145, the fifth demo: the word always starts with 12, and from the second state on it also ends with 12; it consists of 1s, 2s and 3s. -/
theorem C145_demo5 {cfg : Config Nat A Nat I SubstState κ} {sys : SubstSystem Char A}
    (hsys : substInit [1, 2, 3, 2] demo5Rules [] = .ok sys) {T : Nat} (hc : SubstConfig cfg natStr natDtype sys.rules sys.size T)
    (hT : 1 ≤ T) {r : Nat} {wd : World Nat A SubstState} (hr : wd.heap[r]? = some sys.network) (hu : wd.user = sys.state)
    {fuel : Nat} (hf : T ≤ fuel) :
    ∃ res, evolve fuel cfg (some (.list [1, 2, 3, 2])) r wd = .ok res ∧ res.states.length = T ∧
      ∀ t, t < T → ∃ d w, res.acts cfg t = some d ∧ ReadsWord d w ∧ [1, 2] <+: w ∧ (1 ≤ t → [1, 2] <:+ w) ∧ ∀ c ∈ w, c ∈ [1, 2, 3] := by
  have hs : sys.size = 2 := by cases hsys; rfl
  obtain ⟨res, h1, h2, h3⟩ := C145_run hsys (by omega) (f := demo5Step) (P := Sym123) (by rw [hs]; exact demo5_sub)
    (by rw [hs]; exact demo5_closed) (by unfold Sym123; simp) hc hT hr hu hf
  refine ⟨res, h1, h2, fun t ht => ?_⟩
  have h4 := (h3 t ht).2
  rw [hs] at h4
  obtain ⟨⟨v, e1⟩, e2⟩ := demo5_words t
  obtain ⟨d, h5, h6⟩ := h4 (by rw [e1]; simp)
  refine ⟨d, _, h5, h6, ⟨v, e1.symm⟩, fun h => ?_, fun c hc => ?_⟩
  · obtain ⟨v', e3⟩ := e2 h
    exact ⟨v', e3.symm⟩
  · have := slides_inv demo5_closed (w := [1, 2, 3, 2]) (by unfold Sym123; simp) t c hc
    unfold Sym123 at this
    simpa using this

/-- C145, the seventh demo: from the second state on, the left end of the word goes through 2121211, 11111, 222222, 211211, so that the word
never dies out; it consists of 1s and 2s. -/
theorem C145_demo7 {cfg : Config Nat A Nat I SubstState κ} {sys : SubstSystem Char A}
    (hsys : substInit [2, 1, 1, 2, 1, 2] demo7Rules [] = .ok sys) {T : Nat} (hc : SubstConfig cfg natStr natDtype sys.rules sys.size T)
    (hT : 1 ≤ T) {r : Nat} {wd : World Nat A SubstState} (hr : wd.heap[r]? = some sys.network) (hu : wd.user = sys.state)
    {fuel : Nat} (hf : T ≤ fuel) :
    ∃ res, evolve fuel cfg (some (.list [2, 1, 1, 2, 1, 2])) r wd = .ok res ∧ res.states.length = T ∧
      ∀ t, t < T → ∃ d w, res.acts cfg t = some d ∧ ReadsWord d w ∧ (t = 0 → w = [2, 1, 1, 2, 1, 2]) ∧
        (1 ≤ t → [[2, 1, 1, 2, 1, 1], [2, 1, 2, 1, 2, 1, 1], [1, 1, 1, 1, 1], [2, 2, 2, 2, 2, 2]].getD (t % 4) [] <+: w) ∧
        ∀ c ∈ w, c ∈ [1, 2] := by
  have hs : sys.size = 3 := by cases hsys; rfl
  obtain ⟨res, h1, h2, h3⟩ := C145_run hsys (by omega) (f := demo7Step) (P := Sym12) (by rw [hs]; exact demo7_sub)
    (by rw [hs]; exact demo7_closed) (by unfold Sym12; simp) hc hT hr hu hf
  refine ⟨res, h1, h2, fun t ht => ?_⟩
  have h4 := (h3 t ht).2
  rw [hs] at h4
  have hne : slides 3 demo7Step [2, 1, 1, 2, 1, 2] t ≠ [] := by
    by_cases h0 : t = 0
    · subst h0
      decide
    · obtain ⟨v, e⟩ := demo7_words t (by omega)
      rw [e]
      have : t % 4 = 0 ∨ t % 4 = 1 ∨ t % 4 = 2 ∨ t % 4 = 3 := by omega
      rcases this with e | e | e | e <;> rw [e] <;> simp [demo7Fronts]
  obtain ⟨d, h5, h6⟩ := h4 hne
  refine ⟨d, _, h5, h6, fun h => by subst h; rfl, fun h => ?_, fun c hc => ?_⟩
  · obtain ⟨v, e⟩ := demo7_words t h
    exact ⟨v, e.symm⟩
  · have := slides_inv demo7_closed (w := [2, 1, 1, 2, 1, 2]) (by unfold Sym12; simp) t c hc
    unfold Sym12 at this
    simpa using this

end

/-! ## Examples -/

/-- The constructor accepts the rules of the demos, and the settings of a run exist. -/
example : ∃ sys : SubstSystem Char (List Char), substInit [1, 2, 2, 1] demo3Rules [] = .ok sys ∧
    SubstConfig (ExMorph.cfg sys.rules sys.size 13) natStr natDtype sys.rules sys.size 13 :=
  ⟨_, rfl, ExMorph.config _ _ (by decide) _⟩
example : ∃ sys : SubstSystem Char (List Char), substInit [1, 2, 2, 1] demo4Rules [] = .ok sys ∧
    SubstConfig (ExMorph.cfg sys.rules sys.size 101) natStr natDtype sys.rules sys.size 101 :=
  ⟨_, rfl, ExMorph.config _ _ (by decide) _⟩
example : ∃ sys : SubstSystem Char (List Char), substInit [1, 2, 3, 2] demo5Rules [] = .ok sys ∧
    SubstConfig (ExMorph.cfg sys.rules sys.size 101) natStr natDtype sys.rules sys.size 101 :=
  ⟨_, rfl, ExMorph.config _ _ (by decide) _⟩
example : ∃ sys : SubstSystem Char (List Char), substInit [2, 1, 1, 2, 1, 2] demo7Rules [] = .ok sys ∧
    SubstConfig (ExMorph.cfg sys.rules sys.size 5) natStr natDtype sys.rules sys.size 5 :=
  ⟨_, rfl, ExMorph.config _ _ (by decide) _⟩

example : demo3Word 4 = [1, 2, 1, 1, 2, 1, 2, 2, 1] := by decide
example : slides 2 demo4Step [1, 2, 2, 1] 4 = [3, 1, 1, 1, 2, 1, 1] := by decide
example : slides 2 demo5Step [1, 2, 3, 2] 4 = [1, 2, 3, 3, 1, 2] := by decide
example : slides 3 demo7Step [2, 1, 1, 2, 1, 2] 2 = [1, 1, 1, 1, 1, 1, 2, 1, 2, 2, 2, 2, 2] := by decide

end Verif
