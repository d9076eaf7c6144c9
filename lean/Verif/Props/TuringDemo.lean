import Verif.Proofs.TuringDemo
import Verif.Props.Turing
/-! # Property C146: the two kinds of Turing machines agree, and what the machine of the demos does -/

namespace Verif
section
variable {Q S I κ κ' : Type} [DecidableEq Q] [DecidableEq S] [DecidableEq κ] [DecidableEq κ']

theorem confRun_succ {δ : Q → S → Option (Q × S × Int)} {c0 : Conf Q S} {t : Nat} (h : tmStep δ (confRun δ c0 t) ≠ none) :
    tmStep δ (confRun δ c0 t) = some (confRun δ c0 (t + 1)) := by
  rw [confRun]
  cases e : tmStep δ (confRun δ c0 t) with
  | none => exact absurd e h
  | some c => rfl

/-- A run of `T` states is a computation, or there is a first step that is not defined. -/
theorem computation_or {δ : Q → S → Option (Q × S × Int)} {c0 : Conf Q S} (hp : c0.pos < c0.tape.length) (T : Nat) :
    Computation δ (confRun δ c0) T ∨
      ∃ t, t + 1 < T ∧ Computation δ (confRun δ c0) (t + 1) ∧ tmStep δ (confRun δ c0 t) = none := by
  induction T with
  | zero => exact Or.inl ⟨hp, fun t ht => by omega⟩
  | succ T ih =>
    rcases ih with h | ⟨t, h1, h2, h3⟩
    · by_cases h0 : T = 0
      · subst h0
        exact Or.inl ⟨hp, fun t ht => by omega⟩
      by_cases hs : tmStep δ (confRun δ c0 (T - 1)) = none
      · exact Or.inr ⟨T - 1, by omega, by rw [Nat.sub_add_cancel (by omega)]; exact h, hs⟩
      · refine Or.inl ⟨hp, fun t ht => ?_⟩
        by_cases e : t = T - 1
        · subst e
          exact confRun_succ hs
        · exact h.2 t (by omega)
    · exact Or.inr ⟨t, by omega, h2, h3⟩

/-- C146: for every table with the directions left, stay and right, every tape of at least three symbols and every state and position of the
head, the two kinds of machines agree, for any number of timesteps: either both raise, or the tapes in `tape_history` of the one are the
states of the other, and the states of the first hold what is in `_head_history` of the second. -/
theorem C146_agree (table : TMTable Q S) (hdir : ∀ q s q' s' d, table.rule? q s = some (q', s', d) → d = 0 ∨ d = 1 ∨ d = 2)
    (tape : List S) (hn : 3 ≤ tape.length) (q : Q) (p : Nat) (hp : p < tape.length) (T : Nat) (hT : 1 ≤ T)
    (cfg : Config Nat Int (Q × Int) S (HeadTM S) κ) (asInp : S → Inp S) (h : HeadCall cfg table asInp (some T) none)
    (u : HeadTM S) (conds : List (Q × Int)) (hi : headInit tape q p none (some (T : Int)) = .ok (u, conds))
    (hnat : cfg.natLabel = id) (hread : ∀ s, ReadsAs cfg asInp s)
    (cfg' : Config Nat Int S I (TapeTM Q) κ') (h' : TapeCall cfg' table T) (hnat' : cfg'.natLabel = id)
    (N : Net Nat Int) (hN : tapeNetwork tape.length = .ok N)
    (r : Nat) (w : World Nat Int (HeadTM S)) (hr : w.heap[r]? = some headNetwork) (hw : w.user = u)
    (r' : Nat) (w' : World Nat Int (TapeTM Q)) (hr' : w'.heap[r']? = some N) (hw' : w'.user = tapeInit q p)
    (fuel fuel' : Nat) (hfu : T ≤ fuel) (hfu' : T ≤ fuel') :
    (∃ msg msg', evolve fuel cfg (some (.list conds)) r w = .error (.exception msg) ∧
      evolve fuel' cfg' (some (.list tape)) r' w' = .error (.exception msg')) ∨
    ∃ res res', evolve fuel cfg (some (.list conds)) r w = .ok res ∧ evolve fuel' cfg' (some (.list tape)) r' w' = .ok res' ∧
      res.states.length = T ∧ res'.states.length = T ∧ res.world.user.tapes.length = T ∧ res'.world.user.history.length = T ∧
      (∀ t, t < T → ∃ l d, res.world.user.tapes[t]? = some l ∧ res'.acts cfg' t = some d ∧ l.length = tape.length ∧
        d.length = tape.length ∧ ∀ x, x < tape.length → d.get? x = l[x]?) ∧
      ∀ t, t < T → ∃ hq hpos, res.acts cfg t = some [(0, (hq, ((hpos : Nat) : Int)))] ∧
        res'.world.user.history[t]? = some (hq, hpos) := by
  rcases computation_or (δ := table.rule?) (c0 := ⟨q, p, tape⟩) hp T with hc | ⟨t, h1, h2, h3⟩
  · right
    obtain ⟨res, a1, a2, a3, a4⟩ := C52_head_centric table tape q p none (some T) cfg asInp h u conds hi hnat _ T hT rfl hc
      (fun _ _ s _ => hread s) (fun t ht => by unfold StopsAt; simp; omega) (by unfold StopsAt; simp; omega) r w hr hw fuel hfu
    obtain ⟨res', b1, b2, b3, b4⟩ := C53_tape_centric table tape.length hn tape rfl q p cfg' T hT h' hnat' _ rfl hc N hN r' w' hr' hw' fuel'
      hfu'
    refine ⟨res, res', a1, b1, a2, b2, by rw [a4]; simp, by rw [b4]; simp, fun t ht => ?_, fun t ht => ?_⟩
    · obtain ⟨d, d1, d2, d3⟩ := b3 t ht
      exact ⟨_, d, by rw [a4, List.getElem?_map, List.getElem?_range ht]; rfl, d1, (computation_pos hc t ht).2, d2, d3⟩
    · exact ⟨_, _, a3 t ht, by rw [b4, List.getElem?_map, List.getElem?_range ht]; rfl⟩
  · left
    obtain ⟨hpos, _⟩ := computation_pos h2 t (by omega)
    obtain ⟨msg, e1⟩ := C52_undefined table tape q p none (some T) cfg asInp h u conds hi hnat _ (t + 1) (by omega) rfl h2
      (fun _ _ s _ => hread s) (fun s hs => by unfold StopsAt; simp; omega) (by simpa using h3) r w hr hw fuel (by omega)
    obtain ⟨msg', e2⟩ := C53_undefined table tape.length hn tape rfl q p cfg' (t + 1) T (by omega) h1 h' hnat' _ rfl h2 (by
      intro s hs
      rw [Nat.add_sub_cancel] at hs ⊢
      unfold tmStep at h3
      rw [hs, Option.bind_some] at h3
      cases hδ : table.rule? (confRun table.rule? ⟨q, p, tape⟩ t).state s with
      | none => rfl
      | some o =>
        obtain ⟨q', s', d⟩ := o
        rw [hδ, Option.bind_some] at h3
        rcases hdir _ _ _ _ _ hδ with rfl | rfl | rfl <;> simp [moveHead] at h3) N hN r' w' hr' hw' fuel' (by omega)
    exact ⟨msg, msg', e1, e2⟩

/-- C146, the first demo, for every blank tape of at least three cells, every position of the head and every number of timesteps: the machine is
back on a blank tape every eight steps, with the head two cells further to the right. -/
theorem C146_demo_head {n p T : Nat} (hn : 3 ≤ n) (hp : p < n) (hT : 1 ≤ T) (cfg : Config Nat Int (Nat × Int) Int (HeadTM Int) κ)
    (asInp : Int → Inp Int) (h : HeadCall cfg gliderTable asInp (some T) none) (u : HeadTM Int) (conds : List (Nat × Int))
    (hi : headInit (List.replicate n 0) 1 p none (some (T : Int)) = .ok (u, conds)) (hnat : cfg.natLabel = id)
    (hread : ∀ s, ReadsAs cfg asInp s) (r : Nat) (w : World Nat Int (HeadTM Int)) (hr : w.heap[r]? = some headNetwork) (hw : w.user = u)
    (fuel : Nat) (hfu : T ≤ fuel) :
    ∃ res, evolve fuel cfg (some (.list conds)) r w = .ok res ∧ res.states.length = T ∧
      (∀ t, t < T → res.acts cfg t = some [(0, (gliderState t, (gliderPos n p t : Int)))]) ∧
      res.world.user.tapes = (List.range T).map (gliderTape n p) :=
  C52_head_centric gliderTable (List.replicate n 0) 1 p none (some T) cfg asInp h u conds hi hnat _ T hT (glider_start hp)
    (glider_computation hn hp T) (fun _ _ s _ => hread s) (fun t ht => by unfold StopsAt; simp; omega) (by unfold StopsAt; simp; omega)
    r w hr hw fuel hfu

/-- C146, the second demo. -/
theorem C146_demo_tape {n p T : Nat} (hn : 3 ≤ n) (hp : p < n) (hT : 1 ≤ T) (cfg : Config Nat Int Int I (TapeTM Nat) κ)
    (h : TapeCall cfg gliderTable T) (hnat : cfg.natLabel = id) (N : Net Nat Int) (hN : tapeNetwork n = .ok N) (r : Nat)
    (w : World Nat Int (TapeTM Nat)) (hr : w.heap[r]? = some N) (hw : w.user = tapeInit 1 p) (fuel : Nat) (hfu : T ≤ fuel) :
    ∃ res, evolve fuel cfg (some (.list (List.replicate n 0))) r w = .ok res ∧ res.states.length = T ∧
      (∀ t, t < T → ∃ d, res.acts cfg t = some d ∧ d.length = n ∧ ∀ x, x < n → d.get? x = (gliderTape n p t)[x]?) ∧
      res.world.user.history = (List.range T).map (fun t => (gliderState t, gliderPos n p t)) :=
  C53_tape_centric gliderTable n hn (List.replicate n 0) (by simp) 1 p cfg T hT h hnat _ (glider_start hp) (glider_computation hn hp T) N hN r w hr
    hw fuel hfu

end

/-! ## Examples -/

/-- The hypotheses are met by the demos: a tape of 21 cells, the head at 3, 61 timesteps. -/
example : ∃ N res res', tapeNetwork 21 = .ok N ∧
    evolve 61 ({ Ex.headCfg (some 61) none with rule := some (headRule gliderTable none) }) (some (.list [((1 : Nat), (3 : Int))])) 0
      ⟨[headNetwork], ⟨[List.replicate 21 0], 3, false⟩⟩ = .ok res ∧
    evolve 61 ({ Ex.tapeCfg 61 with rule := some (tapeRule gliderTable) }) (some (.list (List.replicate 21 0))) 0
      ⟨[N], tapeInit 1 3⟩ = .ok res' ∧
    res.world.user.tapes[60]? = some [0, 0, 0, 0, 0, 0, 0, 0, 0, 0, 0, 0, 0, 0, 0, 0, 1, 1, 1, 0, 0] ∧
    res'.world.user.history[60]? = some (2, 17) := by
  obtain ⟨N, _, hN, _⟩ := C43_left_to_right 21 1 (by omega) (by omega)
  obtain ⟨res, a1, _, _, a4⟩ := C146_demo_head (n := 21) (p := 3) (T := 61) (by decide) (by decide) (by decide)
    ({ Ex.headCfg (some 61) none with rule := some (headRule gliderTable none) }) .scalar ⟨rfl, rfl, rfl, rfl, rfl, rfl, rfl⟩
    ⟨[List.replicate 21 0], 3, false⟩ [(1, 3)] rfl rfl (fun _ => rfl) 0 ⟨[headNetwork], ⟨[List.replicate 21 0], 3, false⟩⟩ rfl rfl 61 (by decide)
  obtain ⟨res', b1, _, _, b4⟩ := C146_demo_tape (n := 21) (p := 3) (T := 61) (by decide) (by decide) (by decide)
    ({ Ex.tapeCfg 61 with rule := some (tapeRule gliderTable) }) ⟨rfl, rfl, rfl, rfl, rfl, rfl, rfl⟩ rfl N hN 0 ⟨[N], tapeInit 1 3⟩ rfl rfl 61
    (by decide)
  refine ⟨N, res, res', hN, a1, b1, ?_, ?_⟩
  · rw [a4]
    decide +kernel
  · rw [b4]
    decide +kernel

/-- The table of the demos has the directions left and right only, as `C146_agree` asks. -/
example : ∀ q s q' s' d, gliderTable.rule? q s = some (q', s', d) → d = 0 ∨ d = 1 ∨ d = 2 := by
  intro q s q' s' d h
  unfold TMTable.rule? gliderTable at h
  by_cases h1 : q = 1
  · subst h1
    simp [Dict.get?] at h
    grind
  · by_cases h2 : q = 2
    · subst h2
      simp [Dict.get?] at h
      grind
    · simp [Dict.get?, Ne.symm h1, Ne.symm h2] at h

end Verif
