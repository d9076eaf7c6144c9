import Verif.Proofs.Machines
/-! # The language of the pushdown automaton -/

namespace Verif

/-- The transition of `pda_rule`. -/
def pdaDelta (p : Int × List Char) (c : Char) : Except Err (Int × List Char) :=
  pdaChain ⟨0, 0, [], [], [], [], p.1, none, some c⟩ p.2 pdaBranches

theorem pdaChain_congr {ctx ctx' : NodeCtx Nat Int Int Char} (hc : ctx.current = ctx'.current) (hi : ctx.input = ctx'.input)
    (stack : List Char) (bs : List (Int × Char × Char × Option Bool × Int)) :
    pdaChain ctx stack bs = pdaChain ctx' stack bs := by
  induction bs with
  | nil => rfl
  | cons b bs ih => simp only [pdaChain, pdaTest, hc, hi, ih]

theorem pda_performs : Performs pdaRule pdaDelta := by
  intro ctx u i hi
  unfold pdaRule pdaDelta
  rw [pdaChain_congr (ctx := ctx) (ctx' := ⟨0, 0, [], [], [], [], ctx.current, none, some i⟩) rfl hi]
  cases pdaChain ⟨0, 0, [], [], [], [], ctx.current, none, some i⟩ u pdaBranches <;> rfl

theorem pyGet_top (xs : List Char) (x : Char) : pyGet (xs ++ [x]) (-1) = .ok x := by
  have : pyIndex (xs ++ [x]).length (-1) = some xs.length := by
    unfold pyIndex
    simp only [List.length_append, List.length_cons, List.length_nil]
    rw [if_neg (by omega), if_pos (by omega)]
    congr 1
    omega
  unfold pyGet
  rw [this]
  simp

/-- The stack with `n` letters. -/
def pdaStack (n : Nat) : List Char := 'Z' :: List.replicate n 'a'

theorem pyGet_pdaStack (n : Nat) : pyGet (pdaStack n) (-1) = .ok (if n = 0 then 'Z' else 'a') := by
  cases n with
  | zero => exact pyGet_top [] 'Z'
  | succ n =>
    have : pdaStack (n + 1) = pdaStack n ++ ['a'] := by
      simp only [pdaStack, List.replicate_succ', List.cons_append]
    rw [this, pyGet_top]; rfl

theorem pdaStack_push (n : Nat) : pdaStack n ++ ['a'] = pdaStack (n + 1) := by
  simp only [pdaStack, List.replicate_succ', List.cons_append]

theorem pdaStack_pop (n : Nat) : (pdaStack (n + 1)).dropLast = pdaStack n := by
  rw [← pdaStack_push, List.dropLast_concat]

/-- All transitions on the stacks that occur. -/
theorem pdaDelta_eq (q : Int) (n : Nat) (c : Char) : pdaDelta (q, pdaStack n) c =
    if q = 0 ∧ c = 'a' ∧ n = 0 then .ok (1, pdaStack (n + 1))
    else if q = 1 ∧ c = 'a' ∧ n ≠ 0 then .ok (1, pdaStack (n + 1))
    else if q = 1 ∧ c = 'b' ∧ n ≠ 0 then .ok (2, pdaStack (n - 1))
    else if q = 2 ∧ c = 'b' ∧ n ≠ 0 then .ok (2, pdaStack (n - 1))
    else if q = 2 ∧ c = '\n' ∧ n = 0 then .ok (3, pdaStack n)
    else .error (.exception "input rejected") := by
  have hpush := pdaStack_push n
  have hpop : n ≠ 0 → (pdaStack n).dropLast = pdaStack (n - 1) := by
    intro h
    obtain ⟨m, rfl⟩ : ∃ m, n = m + 1 := ⟨n - 1, by omega⟩
    exact pdaStack_pop m
  simp only [pdaDelta, pdaBranches, pdaChain, pdaTest, pyGet_pdaStack, Option.some.injEq, pdaAct, hpush]
  by_cases hn : n = 0
  · subst hn
    by_cases h0 : q = 0 <;> by_cases h1 : q = 1 <;> by_cases h2 : q = 2 <;>
    by_cases ha : c = 'a' <;> by_cases hb : c = 'b' <;> by_cases hz : c = '\n' <;> simp_all
  · have hp := hpop hn
    by_cases h0 : q = 0 <;> by_cases h1 : q = 1 <;> by_cases h2 : q = 2 <;>
    by_cases ha : c = 'a' <;> by_cases hb : c = 'b' <;> by_cases hz : c = '\n' <;> simp_all

/-- From `p`, the words of `L` lead to the accepting state, their prefixes are read, and everything else is rejected. -/
def Recognizes (p : Int × List Char) (L : List Char → Prop) : Prop :=
  ∀ s : List Char, match s.foldlM pdaDelta p with
    | .ok p' => (∃ w, L w ∧ s <+: w) ∧ (p'.1 = 3 ↔ L s)
    | .error e => e = .exception "input rejected" ∧ ¬ ∃ w, L w ∧ s <+: w

theorem Recognizes.intro {p : Int × List Char} {L : List Char → Prop} (hne : ∃ w, L w) (h3 : p.1 = 3 ↔ L [])
    (hstep : ∀ c, (∃ p' L', pdaDelta p c = .ok p' ∧ Recognizes p' L' ∧ ∀ w, L (c :: w) ↔ L' w) ∨
      (pdaDelta p c = .error (.exception "input rejected") ∧ ∀ w, ¬ L (c :: w))) : Recognizes p L := by
  intro s
  cases s with
  | nil =>
    show (∃ w, L w ∧ [] <+: w) ∧ (p.1 = 3 ↔ L [])
    obtain ⟨w, hw⟩ := hne
    exact ⟨⟨w, hw, List.nil_prefix⟩, h3⟩
  | cons c s =>
    simp only [List.foldlM, bind, Except.bind]
    have hcons : (∃ w, L w ∧ (c :: s) <+: w) ↔ ∃ w, L (c :: w) ∧ s <+: w := by
      constructor
      · rintro ⟨w, hw, t, rfl⟩
        exact ⟨s ++ t, hw, List.prefix_append ..⟩
      · rintro ⟨w, hw, t, rfl⟩
        exact ⟨_, hw, t, rfl⟩
    rcases hstep c with ⟨p', L', h1, h2, h3⟩ | ⟨h1, h2⟩
    · rw [h1]
      simp only
      have := h2 s
      simp only [hcons, h3]
      exact this
    · rw [h1]
      simp only
      refine ⟨trivial, ?_⟩
      rw [hcons]
      rintro ⟨w, hw, _⟩
      exact h2 w hw

theorem accept_done (n : Nat) : Recognizes (3, pdaStack n) (fun w => w = []) := by
  refine .intro ⟨[], rfl⟩ (by simp) fun c => Or.inr ⟨?_, by simp⟩
  rw [pdaDelta_eq]
  simp

theorem accept_pop : ∀ n, Recognizes (2, pdaStack n) (fun w => w = List.replicate n 'b' ++ ['\n'])
  | 0 => by
    refine .intro ⟨_, rfl⟩ (by simp) fun c => ?_
    by_cases hc : c = '\n'
    · left
      subst hc
      exact ⟨_, _, by rw [pdaDelta_eq]; simp, accept_done 0, by simp⟩
    · right
      rw [pdaDelta_eq]
      exact ⟨by simp [hc], by simp [hc]⟩
  | n + 1 => by
    refine .intro ⟨_, rfl⟩ (by simp) fun c => ?_
    by_cases hc : c = 'b'
    · left
      subst hc
      exact ⟨_, _, by rw [pdaDelta_eq]; simp, accept_pop n, by simp [List.replicate_succ]⟩
    · right
      rw [pdaDelta_eq]
      exact ⟨by simp [hc], by simp [hc, List.replicate_succ]⟩

/-- After `n` letters `a`: `k` more of them, `n + k` letters `b` and the end of the input. -/
def pdaRest (n : Nat) (w : List Char) : Prop :=
  ∃ k, w = List.replicate k 'a' ++ List.replicate (n + k) 'b' ++ ['\n']

theorem pdaRest_a (n : Nat) (w : List Char) : pdaRest (n + 1) ('a' :: w) ↔ pdaRest (n + 2) w := by
  constructor
  · rintro ⟨k, hk⟩
    cases k with
    | zero => simp [List.replicate_succ] at hk
    | succ k =>
      refine ⟨k, ?_⟩
      simp only [List.replicate_succ, List.cons_append, List.cons.injEq, true_and] at hk
      rw [hk, show n + 1 + (k + 1) = n + 2 + k by omega]
  · rintro ⟨k, rfl⟩
    refine ⟨k + 1, ?_⟩
    simp only [List.replicate_succ, List.cons_append, List.cons.injEq, true_and]
    rw [show n + 1 + (k + 1) = n + 2 + k by omega]

theorem pdaRest_other (n : Nat) (c : Char) (w : List Char) (hc : c ≠ 'a') :
    pdaRest (n + 1) (c :: w) ↔ c = 'b' ∧ w = List.replicate n 'b' ++ ['\n'] := by
  constructor
  · rintro ⟨k, hk⟩
    cases k with
    | zero =>
      simp only [List.replicate_zero, List.nil_append, Nat.add_zero, List.replicate_succ, List.cons_append,
        List.cons.injEq] at hk
      exact hk
    | succ k =>
      simp only [List.replicate_succ, List.cons_append, List.cons.injEq] at hk
      exact absurd hk.1 hc
  · rintro ⟨rfl, rfl⟩
    exact ⟨0, by simp [List.replicate_succ]⟩

theorem accept_push (s : List Char) : ∀ n, match s.foldlM pdaDelta (1, pdaStack (n + 1)) with
    | .ok p' => (∃ w, pdaRest (n + 1) w ∧ s <+: w) ∧ (p'.1 = 3 ↔ pdaRest (n + 1) s)
    | .error e => e = .exception "input rejected" ∧ ¬ ∃ w, pdaRest (n + 1) w ∧ s <+: w := by
  have hcons : ∀ (n : Nat) (c : Char) (s : List Char), (∃ w, pdaRest n w ∧ (c :: s) <+: w) ↔ ∃ w, pdaRest n (c :: w) ∧ s <+: w := by
    intro n c s
    constructor
    · rintro ⟨w, hw, t, rfl⟩
      exact ⟨s ++ t, hw, List.prefix_append ..⟩
    · rintro ⟨w, hw, t, rfl⟩
      exact ⟨_, hw, t, rfl⟩
  induction s with
  | nil =>
    intro n
    refine ⟨⟨_, ⟨0, rfl⟩, List.nil_prefix⟩, ?_⟩
    constructor
    · intro h; simp at h
    · rintro ⟨k, hk⟩; simp at hk
  | cons c s ih =>
    intro n
    simp only [List.foldlM, bind, Except.bind]
    by_cases ha : c = 'a'
    · subst ha
      rw [pdaDelta_eq, if_neg (by simp), if_pos (by simp)]
      simp only [hcons, pdaRest_a]
      exact ih (n + 1)
    · simp only [hcons, pdaRest_other n c _ ha]
      by_cases hb : c = 'b'
      · subst hb
        rw [pdaDelta_eq, if_neg (by simp), if_neg (by simp), if_pos (by simp)]
        simp only [Nat.add_sub_cancel, true_and]
        exact accept_pop n s
      · rw [pdaDelta_eq]
        simp only [ha, hb, false_and, and_false, if_false]
        rw [if_neg (by simp)]
        simp

/-- The whole automaton. -/
theorem pda_language : Recognizes (0, ['Z']) (fun w => ∃ n, 1 ≤ n ∧
    w = List.replicate n 'a' ++ List.replicate n 'b' ++ ['\n']) := by
  refine .intro ⟨_, 1, by omega, rfl⟩ (by simp) fun c => ?_
  by_cases hc : c = 'a'
  · left
    subst hc
    refine ⟨(1, pdaStack 1), pdaRest 1, ?_, fun s => accept_push s 0, ?_⟩
    · exact (pdaDelta_eq 0 0 'a').trans (by simp)
    · intro w
      constructor
      · rintro ⟨n, h1, h2⟩
        obtain ⟨k, rfl⟩ : ∃ k, n = k + 1 := ⟨n - 1, by omega⟩
        refine ⟨k, ?_⟩
        simp only [List.replicate_succ (a := 'a'), List.cons_append, List.cons.injEq, true_and] at h2
        rw [h2, Nat.add_comm 1 k]
      · rintro ⟨k, rfl⟩
        refine ⟨k + 1, by omega, ?_⟩
        simp only [List.replicate_succ (a := 'a'), List.cons_append]
        rw [Nat.add_comm 1 k]
  · right
    constructor
    · exact (pdaDelta_eq 0 0 c).trans (by simp [hc])
    · rintro w ⟨n, h1, h2⟩
      obtain ⟨k, rfl⟩ : ∃ k, n = k + 1 := ⟨n - 1, by omega⟩
      simp only [List.replicate_succ, List.cons_append, List.cons.injEq] at h2
      exact hc h2.1

end Verif
