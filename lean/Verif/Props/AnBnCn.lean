import Verif.Proofs.AbcRuns
/-! # C117: the Turing machine of the demo decides `a^n b^n c^n` -/

namespace Verif
open Spec

/-- The configurations of the machine on the word `w`. -/
abbrev abcRun (left right : Nat) (w : List Int) : Nat → Conf Nat Int := confRun abcδ ⟨0, left + 1, padTape left right w⟩

theorem abc_total (left right : Nat) (w : List Int) (hw : ∀ s ∈ w, Abc s) : ∀ t : Nat,
    tmStep abcδ (abcRun left right w t) = some (abcRun left right w (t + 1)) := by
  have hδ : ∀ q : Nat, q ∈ [0, 1, 2, 3, 4, 5, 6] → ∀ s : Int, s ∈ ([0, 1, 2, 3, 4, 5, 6] : List Int) → ∃ x ∈ abcδ q s,
      x.1 ∈ [0, 1, 2, 3, 4, 5, 6] ∧ x.2.1 ∈ ([0, 1, 2, 3, 4, 5, 6] : List Int) ∧ (x.2.2 = 0 ∨ x.2.2 = 1 ∨ x.2.2 = 2) := by
    decide
  intro t
  refine (confRun_total (δ := abcδ) (Good := fun q => q ∈ [0, 1, 2, 3, 4, 5, 6]) (Fine := fun s => s ∈ ([0, 1, 2, 3, 4, 5, 6] : List Int))
    ?_ (by decide : (0 : Nat) ∈ [0, 1, 2, 3, 4, 5, 6]) ?_ ?_ t).1
  · intro q s hq hs
    obtain ⟨⟨q', s', d⟩, h1, h2, h3, h4⟩ := hδ q hq s hs
    exact ⟨q', s', d, h1, h2, h3, h4⟩
  · intro s hs
    simp only [padTape, List.mem_append, List.mem_replicate] at hs
    rcases hs with (⟨_, rfl⟩ | h) | ⟨_, rfl⟩
    · decide
    · rcases hw s h with rfl | rfl | rfl <;> decide
    · decide
  · simp only [padTape, List.length_append, List.length_replicate]
    omega

/-- The accepting state is kept. -/
theorem abc_final (left right : Nat) (w : List Int) (hw : ∀ s ∈ w, Abc s) (t : Nat) (h : (abcRun left right w t).state = 6) :
    ∀ k : Nat, (abcRun left right w (t + k)).state = 6
  | 0 => h
  | k + 1 => by
    have ih := abc_final left right w hw t h k
    have hs := abc_total left right w hw (t + k)
    have e : t + (k + 1) = t + k + 1 := rfl
    rw [e]
    unfold tmStep at hs
    cases hr : (abcRun left right w (t + k)).tape[(abcRun left right w (t + k)).pos]? with
    | none => rw [hr] at hs; cases hs
    | some s =>
      rw [hr, ih] at hs
      simp only [Option.bind_some] at hs
      have h6 : ∀ x, abcδ 6 s = some x → x.1 = 6 := by
        intro x hx
        have hrow : abcδ 6 s = Dict.get? [(0, (6, 0, 1)), (1, (6, 1, 1)), (2, (6, 2, 1)), (3, (6, 3, 1)), (4, (6, 4, 1)), (5, (6, 5, 1)), (6, (6, 6, 1))] s := rfl
        rw [hrow] at hx
        have := Dict.mem_of_get? hx
        simp only [List.mem_cons, List.not_mem_nil, or_false, Prod.mk.injEq] at this
        rcases this with ⟨_, rfl⟩ | ⟨_, rfl⟩ | ⟨_, rfl⟩ | ⟨_, rfl⟩ | ⟨_, rfl⟩ | ⟨_, rfl⟩ | ⟨_, rfl⟩ <;> rfl
      cases hx : abcδ 6 s with
      | none => rw [hx] at hs; cases hs
      | some x =>
        rw [hx] at hs
        simp only [Option.bind_some] at hs
        cases hmv : moveHead (abcRun left right w (t + k)).tape.length (abcRun left right w (t + k)).pos x.2.2 with
        | none => rw [hmv] at hs; cases hs
        | some p =>
          rw [hmv] at hs
          simp only [Option.map_some, Option.some.injEq] at hs
          rw [← hs]
          exact h6 x hx

/-- C117.  On every word over `a, b, c` between blanks, the machine is in the accepting state after `t` steps iff the word is
`a^n b^n c^n` and `t` is at least `4n² + 5n + 3` (1 for the empty word). -/
theorem C117_accepts (left right : Nat) (w : List Int) (hw : ∀ s ∈ w, s = 1 ∨ s = 2 ∨ s = 3) (t : Nat) :
    (abcRun left right w t).state = 6 ↔ ∃ n, w = anbncn n ∧ abcTime n ≤ t := by
  by_cases hn : ∃ n, w = anbncn n
  · obtain ⟨n, rfl⟩ := hn
    obtain ⟨d, e, h1, h2, h3, h4⟩ := abc_accepts left right n
    have hpos : 1 ≤ abcTime n := by unfold abcTime; split <;> omega
    have r1 : abcRun left right (anbncn n) (abcTime n - 1) = d := confRun_leads h1
    have r2 : abcRun left right (anbncn n) (abcTime n) = e := by
      have := abc_total left right (anbncn n) hw (abcTime n - 1)
      rw [r1, h3, Nat.sub_add_cancel hpos] at this
      exact (Option.some.inj this).symm
    constructor
    · intro h
      refine ⟨n, rfl, ?_⟩
      apply Nat.le_of_not_lt
      intro hlt
      have := abc_final left right (anbncn n) hw t h (abcTime n - 1 - t)
      rw [show t + (abcTime n - 1 - t) = abcTime n - 1 by omega, r1] at this
      exact h2 this
    · rintro ⟨m, hm, ht⟩
      have : m = n := by
        have := congrArg List.length hm
        simp only [anbncn, List.length_append, List.length_replicate] at this
        omega
      subst this
      have := abc_final left right (anbncn m) hw (abcTime m) (by rw [r2]; exact h4) (t - abcTime m)
      rwa [show abcTime m + (t - abcTime m) = t by omega] at this
  · constructor
    · intro h
      exfalso
      obtain ⟨k, d, h1, h2, h3⟩ := abc_rejects left right w hw (fun n h => hn ⟨n, h⟩)
      have r1 : abcRun left right w k = d := confRun_leads h1
      rcases Nat.le_total t k with htk | htk
      · have := abc_final left right w hw t h (k - t)
        rw [show t + (k - t) = k by omega, r1] at this
        exact h3 this
      · have r2 := confRun_add abcδ ⟨0, left + 1, padTape left right w⟩ k (t - k)
        rw [show k + (t - k) = t by omega] at r2
        have : abcRun left right w t = d := by
          show confRun _ _ t = d
          rw [r2, show confRun abcδ ⟨0, left + 1, padTape left right w⟩ k = d from r1]
          exact confRun_stuck h2 _
        rw [this] at h
        exact h3 h
    · rintro ⟨n, h, _⟩
      exact absurd ⟨n, h⟩ hn

theorem abc_zero (left right : Nat) (w : List Int) : abcRun left right w 0 = ⟨0, ((left + 1 : Nat)), padTape left right w⟩ := rfl

section
variable {κ : Type} [DecidableEq κ]

/-- C117, head-centric machine (demo 1b).  On `a^n b^n c^n` with no limit, or a limit that is large enough, `evolve` returns as
soon as the accepting state is entered. -/
theorem C117_head_accepts (left right n : Nat) (maxT : Option Int) (hmax : ∀ m, maxT = some m → m < 1 ∨ (abcTime n : Int) + 1 ≤ m)
    (cfg : Config Nat Int (Nat × Int) Int (HeadTM Int) κ) (h : HeadCall cfg abcTable .scalar maxT (some 6)) (hnat : cfg.natLabel = id)
    (u : HeadTM Int) (conds : List (Nat × Int)) (hi : headInit (padTape left right (anbncn n)) 0 ((left + 1 : Nat) : Int) (some 6) maxT = .ok (u, conds))
    (r : Nat) (w : World Nat Int (HeadTM Int)) (hr : w.heap[r]? = some headNetwork) (hwu : w.user = u) (fuel : Nat) (hf : abcTime n + 1 ≤ fuel) :
    ∃ res, evolve fuel cfg (some (.list conds)) r w = .ok res ∧ res.states.length = abcTime n + 1 ∧
      (∃ p, res.acts cfg (abcTime n) = some [(0, (6, p))]) ∧
      ∀ t, t < abcTime n → ∃ q p, res.acts cfg t = some [(0, (q, p))] ∧ q ≠ 6 := by
  have hw : ∀ s ∈ anbncn n, Abc s := by
    intro s hs
    simp only [anbncn, List.mem_append, List.mem_replicate] at hs
    rcases hs with (⟨_, rfl⟩ | ⟨_, rfl⟩) | ⟨_, rfl⟩ <;> decide
  have hst := C117_accepts left right (anbncn n) hw
  have huniq : ∀ m, anbncn n = anbncn m → m = n := by
    intro m hm
    have := congrArg List.length hm
    simp only [anbncn, List.length_append, List.length_replicate] at this
    omega
  have hpos : 1 ≤ abcTime n := by unfold abcTime; split <;> omega
  have hno : ∀ t, t < abcTime n → (abcRun left right (anbncn n) t).state ≠ 6 := by
    intro t ht h6
    obtain ⟨m, hm, hle⟩ := (hst t).1 h6
    rw [huniq m hm] at hle
    omega
  obtain ⟨res, e1, e2, e3, _⟩ := C52_head_centric abcTable (padTape left right (anbncn n)) 0 (left + 1) (some 6) maxT cfg .scalar h u conds hi hnat
    (abcRun left right (anbncn n)) (abcTime n + 1) (by omega) rfl
    ⟨by rw [abc_zero]; simp only [padTape, List.length_append, List.length_replicate]; omega, fun t _ => abc_total left right _ hw t⟩
    (fun _ _ _ _ => rfl)
    (by
      intro t ht hs
      rcases hs with hs | ⟨_, hs⟩
      · rcases hmax _ hs with h | h <;> omega
      · exact hno t (by omega) (Option.some.inj hs).symm)
    (Or.inr ⟨by omega, by rw [Nat.add_sub_cancel]; exact congrArg some ((hst _).2 ⟨n, rfl, Nat.le_refl _⟩).symm⟩)
    r w hr hwu fuel hf
  refine ⟨res, e1, e2, ⟨((abcRun left right (anbncn n) (abcTime n)).pos : Int), ?_⟩, ?_⟩
  · rw [e3 _ (by omega), (hst _).2 ⟨n, rfl, Nat.le_refl _⟩]
  · intro t ht
    exact ⟨_, _, e3 t (by omega), hno t ht⟩

/-- C117, head-centric machine.  On every other word (and on `a^n b^n c^n` when the limit is too small) `evolve` runs up to the
limit and no state is accepting. -/
theorem C117_head_rejects (left right : Nat) (wd : List Int) (hw : ∀ s ∈ wd, s = 1 ∨ s = 2 ∨ s = 3) (M : Nat) (hM : 1 ≤ M)
    (hn : ∀ n, wd = anbncn n → M ≤ abcTime n)
    (cfg : Config Nat Int (Nat × Int) Int (HeadTM Int) κ) (h : HeadCall cfg abcTable .scalar (some (M : Int)) (some 6)) (hnat : cfg.natLabel = id)
    (u : HeadTM Int) (conds : List (Nat × Int)) (hi : headInit (padTape left right wd) 0 ((left + 1 : Nat) : Int) (some 6) (some (M : Int)) = .ok (u, conds))
    (r : Nat) (w : World Nat Int (HeadTM Int)) (hr : w.heap[r]? = some headNetwork) (hwu : w.user = u) (fuel : Nat) (hf : M ≤ fuel) :
    ∃ res, evolve fuel cfg (some (.list conds)) r w = .ok res ∧ res.states.length = M ∧
      ∀ t, t < M → ∃ q p, res.acts cfg t = some [(0, (q, p))] ∧ q ≠ 6 := by
  have hst := C117_accepts left right wd hw
  have hno : ∀ t, t < M → (abcRun left right wd t).state ≠ 6 := by
    intro t ht h6
    obtain ⟨m, hm, hle⟩ := (hst t).1 h6
    have := hn m hm
    omega
  obtain ⟨res, e1, e2, e3, _⟩ := C52_head_centric abcTable (padTape left right wd) 0 (left + 1) (some 6) (some (M : Int)) cfg .scalar h u conds hi hnat
    (abcRun left right wd) M hM rfl
    ⟨by rw [abc_zero]; simp only [padTape, List.length_append, List.length_replicate]; omega, fun t _ => abc_total left right _ hw t⟩
    (fun _ _ _ _ => rfl)
    (by
      intro t ht hs
      rcases hs with hs | ⟨_, hs⟩
      · have := Option.some.inj hs; omega
      · exact hno t (by omega) (Option.some.inj hs).symm)
    (Or.inl (congrArg some (by omega))) r w hr hwu fuel hf
  exact ⟨res, e1, e2, fun t ht => ⟨_, _, e3 t ht, hno t ht⟩⟩

/-- C117, head-centric machine without a limit: on words that are not of the form `a^n b^n c^n`, `evolve` never returns. -/
theorem C117_head_forever (left right : Nat) (wd : List Int) (hw : ∀ s ∈ wd, s = 1 ∨ s = 2 ∨ s = 3) (hn : ∀ n, wd ≠ anbncn n)
    (cfg : Config Nat Int (Nat × Int) Int (HeadTM Int) κ) (h : HeadCall cfg abcTable .scalar none (some 6)) (hnat : cfg.natLabel = id)
    (u : HeadTM Int) (conds : List (Nat × Int)) (hi : headInit (padTape left right wd) 0 ((left + 1 : Nat) : Int) (some 6) none = .ok (u, conds))
    (r : Nat) (w : World Nat Int (HeadTM Int)) (hr : w.heap[r]? = some headNetwork) (hwu : w.user = u) (fuel : Nat) :
    evolve fuel cfg (some (.list conds)) r w = .error .outOfFuel := by
  refine C52_forever abcTable (padTape left right wd) 0 (left + 1) (some 6) none cfg .scalar h u conds hi hnat (abcRun left right wd) rfl
    (fun T => ⟨by rw [abc_zero]; simp only [padTape, List.length_append, List.length_replicate]; omega, fun t _ => abc_total left right _ hw t⟩)
    (fun _ _ _ => rfl) ?_ r w hr hwu fuel
  intro t hs
  rcases hs with hs | ⟨_, hs⟩
  · cases hs
  · obtain ⟨m, hm, _⟩ := (C117_accepts left right wd hw t).1 (Option.some.inj hs).symm
    exact hn m hm

/-- C117, tape-centric machine (demo 2b): at every timestep the head is in the accepting state iff the word is `a^n b^n c^n` and
enough steps have been made. -/
theorem C117_tape {I : Type} (left right : Nat) (wd : List Int) (hw : ∀ s ∈ wd, s = 1 ∨ s = 2 ∨ s = 3) (hlen : 3 ≤ (padTape left right wd).length) (T : Nat)
    (hT : 1 ≤ T) (cfg : Config Nat Int Int I (TapeTM Nat) κ) (h : TapeCall cfg abcTable T) (hnat : cfg.natLabel = id)
    (N : Net Nat Int) (hN : tapeNetwork (padTape left right wd).length = .ok N) (r : Nat) (w : World Nat Int (TapeTM Nat)) (hr : w.heap[r]? = some N)
    (hwu : w.user = tapeInit 0 (left + 1)) (fuel : Nat) (hf : T ≤ fuel) :
    ∃ res, evolve fuel cfg (some (.list (padTape left right wd))) r w = .ok res ∧ res.states.length = T ∧
      res.world.user.history.length = T ∧
      ∀ t, t < T → ∃ q p, res.world.user.history[t]? = some (q, p) ∧ (q = 6 ↔ ∃ n, wd = anbncn n ∧ abcTime n ≤ t) := by
  obtain ⟨res, e1, e2, _, e4⟩ := C53_tape_centric abcTable _ hlen (padTape left right wd) rfl 0 (left + 1) cfg T hT h hnat (abcRun left right wd) rfl
    ⟨by rw [abc_zero]; simp only [padTape, List.length_append, List.length_replicate]; omega, fun t _ => abc_total left right _ hw t⟩
    N hN r w hr hwu fuel hf
  refine ⟨res, e1, e2, by rw [e4]; simp, fun t ht =>
    ⟨(abcRun left right wd t).state, (abcRun left right wd t).pos, ?_, C117_accepts left right wd hw t⟩⟩
  rw [e4, List.getElem?_map, List.getElem?_range ht]
  rfl

end

/-- The comment of the demo says `n > 0`; the empty word is accepted. -/
theorem C117_empty_word : anbncn 0 = [] ∧ (abcRun 1 1 [] 1).state = 6 := by decide

/-! ### Examples -/

/-- The demo: `aabbcc` is accepted after 29 steps, within the limit of 50 states. -/
example : anbncn 2 = [1, 1, 2, 2, 3, 3] ∧ abcTime 2 + 1 = 30 ∧ padTape 1 1 (anbncn 2) = [0, 0, 1, 1, 2, 2, 3, 3, 0, 0] := by decide
example : (abcRun 1 1 [1, 1, 2, 2, 3, 3] 29).state = 6 ∧ (abcRun 1 1 [1, 1, 2, 2, 3, 3] 28).state = 5 ∧
    (abcRun 1 1 [1, 1, 2, 2, 3, 3] 29).tape = [0, 0, 4, 4, 5, 5, 6, 6, 0, 0] := by decide +kernel
/-- A word with the right numbers of letters in the wrong order. -/
example : (abcRun 1 1 [1, 1, 2, 3, 2, 3] 100).state = 1 ∧ ∀ n, [1, 1, 2, 3, 2, 3] ≠ anbncn n := by
  refine ⟨by decide +kernel, fun n h => ?_⟩
  have hl := congrArg List.length h
  simp only [anbncn, List.length_append, List.length_replicate, List.length_cons, List.length_nil] at hl
  have : n = 2 := by omega
  subst this
  exact absurd h (by decide)

/-- The call of the demo. -/
def Ex.abcCfg (maxT : Option Int) : Config Nat Int (Nat × Int) Int (HeadTM Int) Unit :=
  { Ex.headCfg maxT (some 6) with rule := some (headRule abcTable (some 6)) }
example : ∃ res, evolve 60 (Ex.abcCfg (some 50)) (some (.list [((0 : Nat), (2 : Int))])) 0
      ⟨[headNetwork], ⟨[[0, 0, 1, 1, 2, 2, 3, 3, 0, 0]], 2, false⟩⟩ = .ok res ∧ res.states.length = 30 := by
  obtain ⟨res, h1, h2, _⟩ := C117_head_accepts 1 1 2 (some 50) (by intro m hm; cases hm; exact Or.inr (by decide)) (Ex.abcCfg (some 50))
    ⟨rfl, rfl, rfl, rfl, rfl, rfl, rfl⟩ rfl ⟨[[0, 0, 1, 1, 2, 2, 3, 3, 0, 0]], 2, false⟩ [(0, 2)] rfl 0
    ⟨[headNetwork], ⟨[[0, 0, 1, 1, 2, 2, 3, 3, 0, 0]], 2, false⟩⟩ rfl rfl 60 (by decide)
  exact ⟨res, h1, h2⟩
/-- `ab` without a limit. -/
example (fuel : Nat) : evolve fuel (Ex.abcCfg none) (some (.list [((0 : Nat), (1 : Int))])) 0 ⟨[headNetwork], ⟨[[0, 1, 2, 0]], 1, false⟩⟩ =
    .error .outOfFuel :=
  C117_head_forever 0 0 [1, 2] (by decide) (by
      intro n h
      have hl := congrArg List.length h
      simp only [anbncn, List.length_append, List.length_replicate, List.length_cons, List.length_nil] at hl
      omega) (Ex.abcCfg none) ⟨rfl, rfl, rfl, rfl, rfl, rfl, rfl⟩ rfl ⟨[[0, 1, 2, 0]], 1, false⟩ [(0, 1)] rfl 0 _ rfl rfl fuel
/-- Demo 2b. -/
example : ∃ N res, tapeNetwork 10 = .ok N ∧ evolve 61 { Ex.tapeCfg 61 with rule := some (tapeRule abcTable) }
      (some (.list [0, 0, 1, 1, 2, 2, 3, 3, 0, 0])) 0 ⟨[N], tapeInit 0 2⟩ = .ok res ∧ res.states.length = 61 := by
  obtain ⟨N, _, hN, _⟩ := C43_left_to_right 10 1 (by omega) (by omega)
  obtain ⟨res, h1, h2, _⟩ := C117_tape 1 1 [1, 1, 2, 2, 3, 3] (by decide) (by decide) 61 (by decide)
    { Ex.tapeCfg 61 with rule := some (tapeRule abcTable) } ⟨rfl, rfl, rfl, rfl, rfl, rfl, rfl⟩ rfl N hN 0 ⟨[N], tapeInit 0 2⟩ rfl rfl 61 (by decide)
  exact ⟨N, res, hN, h1, h2⟩

end Verif
