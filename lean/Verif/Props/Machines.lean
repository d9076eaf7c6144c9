import Verif.Proofs.Pushdown
import Verif.Props.Examples
/-! # C90, C91, C92: machines on a single node -/

namespace Verif
section
variable {σ κ : Type} [DecidableEq κ]

/-! ## C90: the pushdown automaton -/

/-- The words `aⁿbⁿ` with `n ≥ 1`. -/
def Spec.Anbn (w : List Char) : Prop := ∃ n, 1 ≤ n ∧ w = List.replicate n 'a' ++ List.replicate n 'b'

/-- C90.  For every string `events`, `evolve` with `pda_rule`, from state `q0` and the stack `['Z']`, either returns
`len(events) + 1` states or raises `Exception("input rejected")`.  It returns exactly for the prefixes of `aⁿbⁿ` followed
by the end marker, `n ≥ 1`, and the activity of the last state is the accepting state 3 exactly if `events` is such a word
with its end marker. -/
theorem C90_language (cfg : Config Nat Int Int Char (List Char) κ) (events : List Char)
    (h : MachineCall cfg pdaRule (.list (strInput events))) (r : Nat) (w : World Nat Int (List Char))
    (hr : w.heap[r]? = some singleNode) (hw : w.user = ['Z']) (fuel : Nat) (hf : events.length < fuel) :
    (evolve fuel cfg (some (.list [0])) r w = .error (.exception "input rejected") ∧
      ¬ ∃ v, Spec.Anbn v ∧ events <+: v ++ ['\n']) ∨
    (∃ res, evolve fuel cfg (some (.list [0])) r w = .ok res ∧ res.states.length = events.length + 1 ∧
      (∃ v, Spec.Anbn v ∧ events <+: v ++ ['\n']) ∧
      ∃ d q, res.acts cfg events.length = some d ∧ d.get? 0 = some q ∧
        (q = 3 ↔ ∃ v, Spec.Anbn v ∧ events = v ++ ['\n'])) := by
  have hL : ∀ P : List Char → Prop, (∃ w, (∃ n, 1 ≤ n ∧ w = List.replicate n 'a' ++ List.replicate n 'b' ++ ['\n']) ∧ P w) ↔
      ∃ v, Spec.Anbn v ∧ P (v ++ ['\n']) := by
    intro P
    constructor
    · rintro ⟨w, ⟨n, h1, rfl⟩, h2⟩
      exact ⟨_, ⟨n, h1, rfl⟩, h2⟩
    · rintro ⟨v, ⟨n, h1, rfl⟩, h2⟩
      exact ⟨_, ⟨n, h1, rfl⟩, h2⟩
  have hrun := machine_run (wrap := fun c => .seq [some c]) (fun i => Or.inl rfl) h pda_performs (0 : Int) hr hf
  have hlang := pda_language events
  rw [hw] at hrun
  cases hfold : events.foldlM pdaDelta ((0 : Int), ['Z']) with
  | error e =>
    rw [hfold] at hrun hlang
    simp only at hrun hlang
    obtain ⟨rfl, h2⟩ := hlang
    rw [hL (fun w => events <+: w)] at h2
    exact Or.inl ⟨hrun, h2⟩
  | ok p =>
    rw [hfold] at hrun hlang
    simp only at hrun hlang
    obtain ⟨res, g1, _, g3, g4⟩ := hrun
    obtain ⟨l1, l2⟩ := hlang
    obtain ⟨d, p', d1, _, d3, d4⟩ := g4 events.length (Nat.le_refl _)
    rw [List.take_length, hfold] at d3
    cases d3
    refine Or.inr ⟨res, g1, g3, (hL (fun w => events <+: w)).1 l1, d, p.1, d1, d4, l2.trans ?_⟩
    constructor
    · rintro ⟨n, h1, h2⟩
      exact ⟨_, ⟨n, h1, rfl⟩, h2⟩
    · rintro ⟨v, ⟨n, h1, rfl⟩, h2⟩
      exact ⟨n, h1, h2⟩

/-- C90 as the demo uses it: with the end marker after the word `v`, the run returns exactly if `v` is `aⁿbⁿ` with
`n ≥ 1`, and raises otherwise. -/
theorem C90_accepts (cfg : Config Nat Int Int Char (List Char) κ) (v : List Char)
    (h : MachineCall cfg pdaRule (.list (strInput (v ++ ['\n'])))) (r : Nat) (w : World Nat Int (List Char))
    (hr : w.heap[r]? = some singleNode) (hw : w.user = ['Z']) (fuel : Nat) (hf : v.length + 1 < fuel) :
    (∃ res, evolve fuel cfg (some (.list [0])) r w = .ok res) ↔ Spec.Anbn v := by
  have key : ∀ u : List Char, Spec.Anbn u → v ++ ['\n'] <+: u ++ ['\n'] → v = u := by
    rintro u ⟨n, _, rfl⟩ hp
    obtain ⟨t, ht⟩ := hp
    rcases List.eq_nil_or_concat t with rfl | ⟨t', x, rfl⟩
    · rw [List.append_nil] at ht
      exact (List.append_inj' ht rfl).1
    · exfalso
      have hx : v ++ ['\n'] ++ t' = List.replicate n 'a' ++ List.replicate n 'b' := by
        rw [List.concat_eq_append, ← List.append_assoc] at ht
        exact (List.append_inj' ht rfl).1
      have : '\n' ∈ v ++ ['\n'] ++ t' := by simp
      rw [hx] at this
      simp [List.mem_append, List.mem_replicate] at this
  rcases C90_language cfg (v ++ ['\n']) h r w hr hw fuel (by simpa using hf) with ⟨h1, h2⟩ | ⟨res, h1, _, ⟨u, h3, h4⟩, _⟩
  · constructor
    · rintro ⟨res, hres⟩
      rw [h1] at hres
      cases hres
    · intro hv
      exact absurd ⟨v, hv, List.prefix_refl _⟩ h2
  · constructor
    · intro _
      rw [key u h3 h4]
      exact h3
    · intro _
      exact ⟨res, h1⟩

/-- The call of the demo. -/
def Ex.pdaCfg (events : String) : Config Nat Int Int Char (List Char) Unit :=
  { rule := some pdaRule, input := .list (strInput events.toList), topology := none, perturbation := none, past := [],
    order := .activitiesFirst, copyNetwork := true, compression := false, persistActs := true, persistNet := true,
    memoize := false, key := none, natLabel := id, labelIdx := fun x => some (x : Int), actAttr := id,
    labelCodec := Ex.natCodec, attrCodec := Ex.intCodec, valCodec := Ex.intCodec }

example : MachineCall (Ex.pdaCfg "aaabbb\n") pdaRule (.list (strInput ("aaabbb".toList ++ ['\n']))) :=
  ⟨rfl, rfl, rfl, rfl, rfl, rfl, rfl, rfl, fun _ => rfl⟩

/-- The last activity of a run, for the examples. -/
def Ex.finalState (events : String) : Option Int :=
  match evolve 20 (Ex.pdaCfg events) (some (.list [0])) 0 ⟨[singleNode], ['Z']⟩ with
  | .error _ => none
  | .ok res => (res.acts (Ex.pdaCfg events) events.length).bind (fun d => d.get? 0)

example : Ex.finalState "aaabbb\n" = some 3 ∧ Ex.finalState "aabbb\n" = none ∧ Ex.finalState "\n" = none := by
  decide +kernel

/-- C90, the end marker is needed: `evolve` returns on `"aab"`, although no word of the language is `aab`; the demo would
print that the input is accepted. -/
theorem C90_needs_end : Ex.finalState "aab" = some 2 ∧ ¬ Spec.Anbn "aab".toList := by
  refine ⟨by decide +kernel, ?_⟩
  rintro ⟨n, h1, h2⟩
  have : "aab".toList.length = n + n := by rw [h2]; simp
  simp at this
  omega

/-! ## C91: the turnstile -/

/-- C91.  For every string of events, the turnstile of the demo (initially locked) goes through `len(events) + 1` states;
the first is locked (0), and the one after an event is locked if the event is a push and unlocked (1) otherwise. -/
theorem C91_turnstile (cfg : Config Nat Int Int Char σ κ) (events : List Char)
    (h : MachineCall cfg (fun ctx u => .ok (⟨fsmRule ctx, [], []⟩, u)) (.list (strInput events))) (r : Nat)
    (w : World Nat Int σ) (hr : w.heap[r]? = some singleNode) (fuel : Nat) (hf : events.length < fuel) :
    ∃ res, evolve fuel cfg (some (.list [0])) r w = .ok res ∧ res.states.length = events.length + 1 ∧
      (∃ d, res.acts cfg 0 = some d ∧ d.length = 1 ∧ d.get? 0 = some 0) ∧
      ∀ (t : Nat) (e : Char), events[t]? = some e → ∃ d, res.acts cfg (t + 1) = some d ∧ d.length = 1 ∧
        d.get? 0 = some (if e = 'p' then 0 else 1) := by
  let delta : Int × σ → Char → Except Err (Int × σ) := fun p c => .ok (if c = 'p' then 0 else 1, p.2)
  have hd : Performs (fun ctx u => .ok (⟨fsmRule ctx, [], []⟩, u)) delta := by
    intro ctx u i hi
    simp only [fsmRule, hi, Option.some.injEq, delta]
  have hfold : ∀ (l : List Char) (p : Int × σ), ∃ q, l.foldlM delta p = .ok (q, p.2) ∧
      (q = (l.getLast?.map (fun c => if c = 'p' then 0 else 1)).getD p.1) := by
    intro l
    induction l with
    | nil => intro p; exact ⟨p.1, rfl, rfl⟩
    | cons c l ih =>
      intro p
      obtain ⟨q, h1, h2⟩ := ih (if c = 'p' then 0 else 1, p.2)
      refine ⟨q, ?_, ?_⟩
      · simp only [List.foldlM, bind, Except.bind, delta] at h1 ⊢
        exact h1
      · rw [h2]
        cases l with
        | nil => rfl
        | cons a l => rw [List.getLast?_cons_cons, List.getLast?_eq_some_getLast (List.cons_ne_nil a l)]; rfl
  have hrun := machine_run (wrap := fun c => .seq [some c]) (fun i => Or.inl rfl) h hd (0 : Int) hr hf
  obtain ⟨q, h1, _⟩ := hfold events (0, w.user)
  rw [h1] at hrun
  simp only at hrun
  obtain ⟨res, g1, _, g3, g4⟩ := hrun
  refine ⟨res, g1, g3, ?_, ?_⟩
  · obtain ⟨d, p, d1, d2, d3, d4⟩ := g4 0 (by omega)
    cases d3
    exact ⟨d, d1, d2, d4⟩
  · intro t e he
    have ht : t < events.length := (List.getElem?_eq_some_iff.1 he).1
    obtain ⟨d, p, d1, d2, d3, d4⟩ := g4 (t + 1) (by omega)
    obtain ⟨q', e1, e2⟩ := hfold (events.take (t + 1)) (0, w.user)
    rw [e1] at d3
    cases d3
    refine ⟨d, d1, d2, ?_⟩
    rw [d4, e2]
    rw [List.take_add_one, he]
    simp

/-- The call of the demo. -/
def Ex.fsmCfg (events : String) : Config Nat Int Int Char (List Char) Unit :=
  { Ex.pdaCfg events with rule := some (fun ctx u => .ok (⟨fsmRule ctx, [], []⟩, u)) }

example : MachineCall (Ex.fsmCfg "cpcpp") (fun ctx u => .ok (⟨fsmRule ctx, [], []⟩, u)) (.list (strInput "cpcpp".toList)) :=
  ⟨rfl, rfl, rfl, rfl, rfl, rfl, rfl, rfl, fun _ => rfl⟩

example : (match evolve 20 (Ex.fsmCfg "cpcpp") (some (.list [0])) 0 ⟨[singleNode], []⟩ with
    | .error _ => []
    | .ok res => (List.range 6).map (fun t => (res.acts (Ex.fsmCfg "cpcpp") t).bind (fun d => d.get? 0))) =
    [some 0, some 1, some 0, some 1, some 0, some 0] := by decide +kernel

/-! ## C92: the Collatz sequence -/

/-- One step of the Collatz map. -/
def Spec.collatz (n : Int) : Int := if n % 2 = 0 then n / 2 else 3 * n + 1

/-- The Collatz sequence from `n`. -/
def Spec.collatzSeq (n : Int) : Nat → Int
  | 0 => n
  | t + 1 => Spec.collatz (Spec.collatzSeq n t)

theorem collatz_steps {cfg : Config Nat Int Int Int σ κ}
    (h : MachineCall cfg (fun ctx u => .ok (⟨collatzRule ctx, [], []⟩, u)) (.fn collatzInput)) (n : Int) (T : Nat)
    (hne : ∀ t, t + 1 < T → Spec.collatzSeq n t ≠ 1) (u0 : σ) :
    RunSteps cfg (effectiveKey cfg singleNode) (fun ctx u => .ok (⟨collatzRule ctx, [], []⟩, u)) singleNode (fun _ => [0])
      (initDict cfg (some (.list [n]))) (fun t _ => Spec.collatzSeq n t) (fun _ => .scalar 1) (fun _ _ => some 1)
      (fun _ _ u => u = u0) (fun _ _ _ u => u = u0) T := by
  obtain ⟨i1, i2⟩ := machine_init h n
  obtain ⟨hl, _, _, _⟩ := singleNode_spec
  refine ⟨?_, ?_, ?_, ?_⟩
  · intro t m u ht hu
    refine ⟨u, ?_, hu⟩
    have hg : (plainActs singleNode.labels (initDict cfg (some (.list [n]))) (fun t _ => Spec.collatzSeq n t) t).get? 0 =
        some (Spec.collatzSeq n t) := get?_plainActs (f := fun t _ => Spec.collatzSeq n t) (by
          intro x hx
          rw [hl, List.mem_singleton] at hx
          subst hx
          exact i2) t (by rw [hl]; simp)
    rw [h.input]
    simp only [callInput, collatzInput, Dict.get, hg, if_neg (hne t ht)]
  · intro t x _ _
    rfl
  · intro t done x rest m u ht _ hu
    refine ⟨m, u, ?_, hu⟩
    unfold applyRule
    rw [h.memo]
    rfl
  · intro t m u _ hu
    exact hu

/-- C92.  From any number `n`: if the Collatz sequence reaches 1 and `K` is the first time it does, then `evolve` returns
`K + 1` states, which are the numbers of the sequence up to the first 1. -/
theorem C92_reaches_one (cfg : Config Nat Int Int Int σ κ)
    (h : MachineCall cfg (fun ctx u => .ok (⟨collatzRule ctx, [], []⟩, u)) (.fn collatzInput)) (n : Int) (K : Nat)
    (hK : Spec.collatzSeq n K = 1) (hmin : ∀ t, t < K → Spec.collatzSeq n t ≠ 1) (r : Nat) (w : World Nat Int σ)
    (hr : w.heap[r]? = some singleNode) (fuel : Nat) (hf : K < fuel) :
    ∃ res, evolve fuel cfg (some (.list [n])) r w = .ok res ∧
      ShowsRun cfg res (K + 1) 1 (fun t _ => Spec.collatzSeq n t) := by
  obtain ⟨i1, i2⟩ := machine_init h n
  obtain ⟨hl, _, hsz, hnb⟩ := singleNode_spec
  have h0 : ∀ x ∈ singleNode.labels, (initDict cfg (some (.list [n]))).get? x = some (Spec.collatzSeq n 0) := by
    intro x hx
    rw [hl, List.mem_singleton] at hx
    subst hx
    exact i2
  obtain ⟨res, m, u', ext, g1, _, g3, _, _⟩ := evolve_run (T := K + 1) (fuel := fuel) (init := some (.list [n]))
    (f := fun t _ => Spec.collatzSeq n t) (nb := fun _ => [0]) h.rule h.pert h.top
    h.packOk (by rw [hl]; simp) (by
      intro x hx
      rw [hl, List.mem_singleton] at hx
      subst hx
      exact ⟨hnb, by rw [hl]; simp⟩) (by rw [i1, hsz]) h0
    ⟨collatz_steps h n (K + 1) (fun t ht => hmin t (by omega)) w.user, fun m u hu => ⟨u, by
      have hg : (plainActs singleNode.labels (initDict cfg (some (.list [n]))) (fun t _ => Spec.collatzSeq n t) K).get? 0 =
        some (Spec.collatzSeq n K) := get?_plainActs (f := fun t _ => Spec.collatzSeq n t) h0 K (by rw [hl]; simp)
      rw [h.input]
      simp only [callInput, collatzInput, Dict.get, Nat.add_sub_cancel, hg, if_pos hK]⟩⟩
    (by omega) (by rw [h.input]; simp) hr rfl (by omega)
  exact ⟨res, g1, shows_plain_of (T := K + 1) (n := 1) h.persist h.compression (by omega)
      (by rw [hl]; exact List.Perm.refl _) i1 (f := fun t _ => Spec.collatzSeq n t) (by
        intro x hx
        exact h0 x (by rw [hl]; simpa using hx)) g3⟩

/-- C92, otherwise: if the sequence never reaches 1, `evolve` does not return (it runs out of every amount of fuel). -/
theorem C92_never (cfg : Config Nat Int Int Int σ κ)
    (h : MachineCall cfg (fun ctx u => .ok (⟨collatzRule ctx, [], []⟩, u)) (.fn collatzInput)) (n : Int)
    (hne : ∀ t, Spec.collatzSeq n t ≠ 1) (r : Nat) (w : World Nat Int σ)
    (hr : w.heap[r]? = some singleNode) (fuel : Nat) :
    evolve fuel cfg (some (.list [n])) r w = .error .outOfFuel := by
  obtain ⟨i1, i2⟩ := machine_init h n
  obtain ⟨hl, _, hsz, hnb⟩ := singleNode_spec
  refine evolve_diverges (f := fun t _ => Spec.collatzSeq n t) (nb := fun _ => [0]) h.rule h.pert h.top
    h.packOk (by rw [hl]; simp) (by
      intro x hx
      rw [hl, List.mem_singleton] at hx
      subst hx
      exact ⟨hnb, by rw [hl]; simp⟩) (by rw [i1, hsz]) (by
      intro x hx
      rw [hl, List.mem_singleton] at hx
      subst hx
      exact i2)
    (fun T => collatz_steps h n T (fun t _ => hne t) w.user)
    (by rw [h.input]; simp) hr rfl fuel

/-- The call of the demo. -/
def Ex.collatzCfg : Config Nat Int Int Int (List Int) Unit :=
  { Ex.base with rule := some (fun ctx u => .ok (⟨collatzRule ctx, [], []⟩, u)), input := .fn collatzInput }

example : MachineCall Ex.collatzCfg (fun ctx u => .ok (⟨collatzRule ctx, [], []⟩, u)) (.fn collatzInput) :=
  ⟨rfl, rfl, rfl, rfl, rfl, rfl, rfl, rfl, fun _ => rfl⟩

example : Spec.collatzSeq 3 7 = 1 ∧ ∀ t : Fin 7, Spec.collatzSeq 3 t ≠ 1 := by decide

/-- The hypothesis of `C92_never` holds for 0, which the rule maps to itself. -/
example : ∀ t, Spec.collatzSeq 0 t ≠ 1 := by
  have : ∀ t, Spec.collatzSeq 0 t = 0 := by
    intro t
    induction t with
    | zero => rfl
    | succ t ih => simp only [Spec.collatzSeq, ih, Spec.collatz]; decide
  intro t
  rw [this]
  decide

end
end Verif
