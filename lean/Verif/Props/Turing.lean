import Verif.Proofs.CARun
import Verif.Props.Topology
import Verif.Props.EndToEnd
import Verif.Props.Examples
import Verif.Model.Turing
import Verif.Spec.Turing
/-! # Properties C52, C53: Turing machines -/

namespace Verif
open Spec

section
variable {Q S : Type}

/-! ## Computations -/

theorem moveHead_lt {n pos p : Nat} {d : Int} (hp : pos < n) (h : moveHead n pos d = some p) : p < n := by
  unfold moveHead at h
  split at h
  · cases h; exact Nat.mod_lt _ (by omega)
  · split at h
    · cases h; exact hp
    · split at h
      · cases h; exact Nat.mod_lt _ (by omega)
      · cases h

theorem tmStep_some {δ : Q → S → Option (Q × S × Int)} {c c' : Conf Q S} (h : tmStep δ c = some c') :
    ∃ s s' d, c.tape[c.pos]? = some s ∧ δ c.state s = some (c'.state, s', d) ∧
      moveHead c.tape.length c.pos d = some c'.pos ∧ c'.tape = c.tape.set c.pos s' := by
  unfold tmStep at h
  obtain ⟨s, h1, h2⟩ := Option.bind_eq_some_iff.1 h
  obtain ⟨⟨q, s', d⟩, h3, h4⟩ := Option.bind_eq_some_iff.1 h2
  obtain ⟨p, h5, rfl⟩ := Option.map_eq_some_iff.1 h4
  exact ⟨s, s', d, h1, h3, h5, rfl⟩

theorem computation_pos {δ : Q → S → Option (Q × S × Int)} {c : Nat → Conf Q S} {T : Nat} (h : Computation δ c T) :
    ∀ t, t < T → (c t).pos < (c t).tape.length ∧ (c t).tape.length = (c 0).tape.length := by
  intro t
  induction t with
  | zero => intro _; exact ⟨h.1, rfl⟩
  | succ t ih =>
    intro ht
    obtain ⟨h1, h2⟩ := ih (by omega)
    obtain ⟨s, s', d, _, _, h5, h6⟩ := tmStep_some (h.2 t ht)
    have hl : (c (t + 1)).tape.length = (c t).tape.length := by rw [h6, List.length_set]
    exact ⟨by rw [hl]; exact moveHead_lt h1 h5, hl.trans h2⟩

theorem nextPos_eq {n pos : Nat} (hp : pos < n) (d : Int) :
    (∀ p, moveHead n pos d = some p → nextPos d (pos : Int) n = .ok (p : Int)) ∧
    (moveHead n pos d = none → ∃ msg, nextPos d (pos : Int) n = .error (.exception msg)) := by
  have hn : ¬ n = 0 := by omega
  unfold moveHead nextPos
  by_cases h0 : d = 0
  · subst h0
    simp only [if_true, if_neg hn]
    refine ⟨fun p h => ?_, fun h => by cases h⟩
    cases h
    rw [Int.natCast_emod, ← Int.add_emod_right]
    congr 2
    omega
  by_cases h1 : d = 1
  · subst h1
    simp
  by_cases h2 : d = 2
  · subst h2
    simp only [h0, h1, if_true, if_false, if_neg hn]
    refine ⟨fun p h => ?_, fun h => by cases h⟩
    cases h
    rw [Int.natCast_emod]; rfl
  · simp only [if_neg h0, if_neg h1, if_neg h2]
    exact ⟨fun p h => (by cases h), fun _ => ⟨_, rfl⟩⟩

end

/-! ## C52 -/

section
variable {Q S κ : Type} [DecidableEq Q] [DecidableEq S] [DecidableEq κ]

theorem headNetwork_labels : headNetwork.labels = [0] ∧ specNbrs headNetwork 0 = some [0] ∧ headNetwork.size = 1 := by
  refine ⟨by decide, by decide, by decide⟩

/-- A call of `evolve` as the documentation of `HeadCentricTuringMachine` shows it: the network, activity rule and input
function of the machine; no memoization (the rule writes on the tape). -/
structure HeadCall (cfg : Config Nat Int (Q × Int) S (HeadTM S) κ) (table : TMTable Q S) (asInp : S → Inp S)
    (maxTimesteps : Option Int) (terminating : Option Q) : Prop where
  rule : cfg.rule = some (headRule table terminating)
  input : cfg.input = .fn (headInput asInp maxTimesteps)
  pert : cfg.perturbation = none
  top : cfg.topology = none
  memo : cfg.memoize = false
  persist : cfg.persistActs = true
  compression : cfg.compression = false

/-- The single node gets the symbol as its input: numbers and one-character strings do, see `C52_long_symbols`. -/
def ReadsAs (cfg : Config Nat Int (Q × Int) S (HeadTM S) κ) (asInp : S → Inp S) (s : S) : Prop :=
  SpecInput cfg.labelIdx (asInp s) 0 (some s)

/-- What the object knows after `t` steps. -/
def HeadPre (c : Nat → Conf Q S) (terminating : Option Q) (t : Nat) (u : HeadTM S) : Prop :=
  u.tapes = (List.range (t + 1)).map (fun s => (c s).tape) ∧ u.pos = ((c t).pos : Int) ∧
    (u.halt = true ↔ 1 ≤ t ∧ terminating = some (c t).state)

def HeadMid (c : Nat → Conf Q S) (terminating : Option Q) (t : Nat) (done : List Nat) (u : HeadTM S) : Prop :=
  (done = [] → HeadPre c terminating t u) ∧ (done = [0] → HeadPre c terminating (t + 1) u)

omit [DecidableEq Q] [DecidableEq S] in
theorem headPre_last {c : Nat → Conf Q S} {term : Option Q} {t : Nat} {u : HeadTM S} (h : HeadPre c term t u) :
    u.tapes.getLast? = some (c t).tape ∧ u.tapes.length = t + 1 := by
  rw [h.1, List.range_succ]; simp

omit [DecidableEq S] in
theorem headInput_continue {N : Type} {asInp : S → Inp S} {maxT : Option Int} {term : Option Q} {c : Nat → Conf Q S} {t : Nat}
    (hp : (c t).pos < (c t).tape.length) (hns : ¬ StopsAt maxT term c t) {u : HeadTM S} (hu : HeadPre c term t u)
    (t' : Nat) (a : Dict Nat (Q × Int)) (n : N) :
    headInput asInp maxT t' a n u = .ok (some (asInp ((c t).tape[(c t).pos])), u) := by
  obtain ⟨h1, h2⟩ := headPre_last hu
  unfold StopsAt at hns
  have hh : u.halt = false := by
    cases hb : u.halt with
    | false => rfl
    | true => exact absurd (Or.inr (hu.2.2.1 hb)) hns
  unfold headInput
  rw [if_neg (by rw [h2]; exact fun h => hns (Or.inl h)), hh, if_neg (by simp), h1]
  simp only
  rw [hu.2.1, pyGet_natCast _ hp]

omit [DecidableEq S] in
theorem headInput_stop {N : Type} {asInp : S → Inp S} {maxT : Option Int} {term : Option Q} {c : Nat → Conf Q S} {t : Nat}
    (hst : StopsAt maxT term c t) {u : HeadTM S} (hu : HeadPre c term t u) (t' : Nat) (a : Dict Nat (Q × Int)) (n : N) :
    headInput asInp maxT t' a n u = .ok (none, u) := by
  obtain ⟨h1, h2⟩ := headPre_last hu
  unfold headInput
  rcases hst with h | h
  · rw [if_pos (by rw [h2]; exact h)]
  · rw [hu.2.2.2 h]
    split
    · rfl
    · simp

/-- The steps of the machine in `evolve`. -/
theorem head_steps {cfg : Config Nat Int (Q × Int) S (HeadTM S) κ} {table : TMTable Q S} {asInp : S → Inp S}
    {maxT : Option Int} {term : Option Q} (h : HeadCall cfg table asInp maxT term) {c : Nat → Conf Q S} {T : Nat}
    (hc : Computation table.rule? c T) (hread : ∀ t, t < T → ∀ s ∈ (c t).tape, ReadsAs cfg asInp s)
    (hns : ∀ t, t + 1 < T → ¬ StopsAt maxT term c t) (ks : KeySpec Nat Int (Q × Int) S κ) (d : Dict Nat (Q × Int)) :
    RunSteps cfg ks (headRule table term) headNetwork (fun _ => [0]) d (fun t _ => ((c t).state, ((c t).pos : Int)))
      (fun t => if hp : (c t).pos < (c t).tape.length then asInp ((c t).tape[(c t).pos]) else .timestep)
      (fun t _ => (c t).tape[(c t).pos]?)
      (fun t _ u => HeadPre c term t u) (fun t done _ u => HeadMid c term t done u) T := by
  have hlab := headNetwork_labels.1
  refine ⟨?_, ?_, ?_, ?_⟩
  · intro t m u ht hu
    obtain ⟨hp, _⟩ := computation_pos hc t (by omega)
    refine ⟨u, ?_, ?_⟩
    · rw [h.input]
      simp only [callInput, dif_pos hp]
      exact headInput_continue hp (hns t ht) hu _ _ _
    · exact ⟨fun _ => hu, fun h => by cases h⟩
  · intro t x ht hx
    obtain ⟨hp, _⟩ := computation_pos hc t (by omega)
    rw [hlab, List.mem_singleton] at hx
    subst hx
    rw [dif_pos hp, List.getElem?_eq_getElem hp]
    exact hread t (by omega) _ (List.getElem_mem hp)
  · intro t done x rest m u ht hl hm
    rw [hlab] at hl
    have hd : done = [] ∧ x = 0 := by
      cases done with
      | nil => simp at hl; exact ⟨rfl, hl.1.symm⟩
      | cons a l => simp at hl
    obtain ⟨rfl, rfl⟩ := hd
    have hu := hm.1 rfl
    obtain ⟨h1, h2⟩ := headPre_last hu
    obtain ⟨hp, _⟩ := computation_pos hc t (by omega)
    obtain ⟨s, s', dir, q1, q2, q3, q4⟩ := tmStep_some (hc.2 t ht)
    have hlen : (c (t + 1)).tape.length = (c t).tape.length := by rw [q4, List.length_set]
    have hnp := (nextPos_eq hp dir).1 _ q3
    unfold applyRule
    rw [h.memo]
    simp only [Bool.false_eq_true, if_false]
    have hr : headRule table term (runCtx cfg headNetwork (fun _ => [0]) d
        (fun t _ => ((c t).state, ((c t).pos : Int))) (fun t _ => (c t).tape[(c t).pos]?) t 0) u =
        .ok (⟨((c (t + 1)).state, ((c (t + 1)).pos : Int)), [], []⟩, ⟨u.tapes ++ [(c (t + 1)).tape], (c (t + 1)).pos,
          if term = some (c (t + 1)).state then true else u.halt⟩) := by
      simp only [headRule, runCtx, q1, Option.bind_some, q2, h1]
      rw [pySet_natCast _ hp]
      simp only
      rw [← q4, hlen, hnp]
    rw [hr]
    refine ⟨m, _, rfl, fun h => (by cases h), fun _ => ⟨?_, rfl, ?_⟩⟩
    · simp only [hu.1]
      rw [List.range_succ (n := t + 1)]
      simp
    · have hh : ¬ u.halt = true := fun hb => hns t ht (Or.inr (hu.2.2.1 hb))
      simp only
      split
      · rename_i heq; simp [heq]
      · rename_i heq; simp [heq, hh]
  · intro t m u ht hm
    exact hm.2 hlab

omit [DecidableEq S] in
theorem headPre_zero {tape : List S} {q : Q} {p : Nat} {maxT : Option Int} {term : Option Q} {u : HeadTM S}
    {conds : List (Q × Int)} (hi : headInit tape q p term maxT = .ok (u, conds)) {c : Nat → Conf Q S}
    (h0 : c 0 = ⟨q, p, tape⟩) : HeadPre c term 0 u ∧ conds = [(q, (p : Int))] := by
  unfold headInit at hi
  split at hi
  · cases hi
  · cases hi
    exact ⟨⟨by simp [h0], by simp [h0], by simp⟩, rfl⟩

/-- C52.  The machine `HeadCentricTuringMachine(tape, table, q, p, terminating, max)`; `c` is the computation of the
machine with the given table on the circular tape, and `T - 1` is the first time at which it is to stop.  Then `evolve`
returns `T` states; state `t` holds the state and the position of the head after `t` steps; `tape_history` is the sequence of
tapes. -/
theorem C52_head_centric (table : TMTable Q S) (tape : List S) (q : Q) (p : Nat) (term : Option Q) (maxT : Option Int)
    (cfg : Config Nat Int (Q × Int) S (HeadTM S) κ) (asInp : S → Inp S) (h : HeadCall cfg table asInp maxT term)
    (u : HeadTM S) (conds : List (Q × Int)) (hi : headInit tape q p term maxT = .ok (u, conds))
    (hnat : cfg.natLabel = id) (c : Nat → Conf Q S) (T : Nat) (hT : 1 ≤ T) (h0 : c 0 = ⟨q, p, tape⟩)
    (hc : Computation table.rule? c T) (hread : ∀ t, t < T → ∀ s ∈ (c t).tape, ReadsAs cfg asInp s)
    (hns : ∀ t, t + 1 < T → ¬ StopsAt maxT term c t) (hst : StopsAt maxT term c (T - 1))
    (r : Nat) (w : World Nat Int (HeadTM S)) (hr : w.heap[r]? = some headNetwork) (hw : w.user = u)
    (fuel : Nat) (hfu : T ≤ fuel) :
    ∃ res, evolve fuel cfg (some (.list conds)) r w = .ok res ∧ res.states.length = T ∧
      (∀ t, t < T → res.acts cfg t = some [(0, ((c t).state, ((c t).pos : Int)))]) ∧
      res.world.user.tapes = (List.range T).map (fun t => (c t).tape) := by
  obtain ⟨hpre, hcond⟩ := headPre_zero hi h0
  subst hcond hw
  have hd : initDict cfg (some (.list [(q, (p : Int))])) = [(0, (q, (p : Int)))] := by
    simp [initDict, Conds.toDict, hnat, Dict.ofPairs, Dict.set, List.zipIdx]
  obtain ⟨hl1, hl2, hl3⟩ := headNetwork_labels
  have hR : RunSpec cfg (effectiveKey cfg headNetwork) (headRule table term) headNetwork (fun _ => [0])
      (initDict cfg (some (.list [(q, (p : Int))]))) (fun t _ => ((c t).state, ((c t).pos : Int)))
      (fun t => if hp : (c t).pos < (c t).tape.length then asInp ((c t).tape[(c t).pos]) else .timestep)
      (fun t _ => (c t).tape[(c t).pos]?)
      (fun t _ u => HeadPre c term t u) (fun t done _ u => HeadMid c term t done u) T :=
    ⟨head_steps h hc hread hns _ _, fun m u hu => ⟨u, by
      rw [h.input]; simp only [callInput]; exact headInput_stop hst hu _ _ _⟩⟩
  have hpk : cfg.PackOk := by intro hcomp; rw [h.compression] at hcomp; cases hcomp
  obtain ⟨res, m, u', ext, e1, _, e3, e4, e5⟩ := evolve_run h.rule h.pert h.top hpk (by rw [hl1]; decide)
    (nb := fun _ => [0]) (by
      intro x hx
      rw [hl1, List.mem_singleton] at hx
      subst hx
      exact ⟨hl2, by rw [hl1]; exact fun y hy => hy⟩)
    (init := some (.list [(q, (p : Int))])) (by rw [hd, hl3]; rfl) (by
      intro x hx
      rw [hl1, List.mem_singleton] at hx
      subst hx
      rw [hd, h0]; rfl) hR hT (by rw [h.input]; simp) hr hpre hfu
  refine ⟨res, e1, by rw [e3.len]; simp, ?_, ?_⟩
  · intro t ht
    rw [e3.acts]
    simp only [List.getElem?_map, List.getElem?_range ht, Option.map_some, Option.bind_some, obsActs]
    have hpl : plainActs headNetwork.labels (initDict cfg (some (.list [(q, (p : Int))])))
        (fun t _ => ((c t).state, ((c t).pos : Int))) t = [(0, ((c t).state, ((c t).pos : Int)))] := by
      unfold plainActs
      split
      · rename_i ht0; subst ht0; rw [hd, h0]
      · rw [hl1]; rfl
    rw [hpl, if_pos ⟨Or.inr h.persist, rfl⟩, h.compression]
    simp
  · rw [h.input] at e5
    have := headInput_stop (asInp := asInp) hst e4 T (plainActs headNetwork.labels
      (initDict cfg (some (.list [(q, (p : Int))]))) (fun t _ => ((c t).state, ((c t).pos : Int))) (T - 1)) headNetwork
    simp only [callInput] at e5
    rw [this] at e5
    have hu : u' = res.world.user := congrArg Prod.snd (Except.ok.inj e5)
    rw [← hu, e4.1, Nat.sub_add_cancel hT]

/-- C52, undefined transitions: when the machine has to take a step that the table does not define (no rule, or a
direction other than 0, 1, 2), `evolve` raises. -/
theorem C52_undefined (table : TMTable Q S) (tape : List S) (q : Q) (p : Nat) (term : Option Q) (maxT : Option Int)
    (cfg : Config Nat Int (Q × Int) S (HeadTM S) κ) (asInp : S → Inp S) (h : HeadCall cfg table asInp maxT term)
    (u : HeadTM S) (conds : List (Q × Int)) (hi : headInit tape q p term maxT = .ok (u, conds))
    (hnat : cfg.natLabel = id) (c : Nat → Conf Q S) (T : Nat) (hT : 1 ≤ T) (h0 : c 0 = ⟨q, p, tape⟩)
    (hc : Computation table.rule? c T) (hread : ∀ t, t < T → ∀ s ∈ (c t).tape, ReadsAs cfg asInp s)
    (hns : ∀ t, t < T → ¬ StopsAt maxT term c t) (hund : tmStep table.rule? (c (T - 1)) = none)
    (r : Nat) (w : World Nat Int (HeadTM S)) (hr : w.heap[r]? = some headNetwork) (hw : w.user = u)
    (fuel : Nat) (hfu : T ≤ fuel) :
    ∃ msg, evolve fuel cfg (some (.list conds)) r w = .error (.exception msg) := by
  obtain ⟨hpre, hcond⟩ := headPre_zero hi h0
  subst hcond hw
  have hd : initDict cfg (some (.list [(q, (p : Int))])) = [(0, (q, (p : Int)))] := by
    simp [initDict, Conds.toDict, hnat, Dict.ofPairs, Dict.set, List.zipIdx]
  obtain ⟨hl1, hl2, hl3⟩ := headNetwork_labels
  obtain ⟨hp, _⟩ := computation_pos hc (T - 1) (by omega)
  have hpk : cfg.PackOk := by intro hcomp; rw [h.compression] at hcomp; cases hcomp
  have hfail : ∃ msg, ∀ m u, HeadMid c term (T - 1) [] u →
      applyRule cfg (effectiveKey cfg headNetwork) (headRule table term) (runCtx cfg headNetwork (fun _ => [0])
        (initDict cfg (some (.list [(q, (p : Int))]))) (fun t _ => ((c t).state, ((c t).pos : Int)))
        (fun t _ => (c t).tape[(c t).pos]?) (T - 1) 0) m u = .error (.exception msg) := by
    unfold applyRule
    rw [h.memo]
    simp only [Bool.false_eq_true, if_false]
    have hg := List.getElem?_eq_getElem hp
    unfold tmStep at hund
    rw [hg] at hund
    simp only [Option.bind_some] at hund
    cases hδ : table.rule? (c (T - 1)).state (c (T - 1)).tape[(c (T - 1)).pos] with
    | none =>
      refine ⟨"no rule defined", fun m u _ => ?_⟩
      simp only [headRule, runCtx, hg, Option.bind_some, hδ]
    | some out =>
      obtain ⟨q', s', dir⟩ := out
      rw [hδ] at hund
      simp only [Option.bind_some, Option.map_eq_none_iff] at hund
      obtain ⟨msg, hmsg⟩ := (nextPos_eq hp dir).2 hund
      refine ⟨msg, fun m u hu => ?_⟩
      obtain ⟨h1, h2⟩ := headPre_last (hu.1 rfl)
      simp only [headRule, runCtx, hg, Option.bind_some, hδ, h1]
      rw [pySet_natCast _ hp]
      simp only
      rw [List.length_set, hmsg]
  obtain ⟨msg, hmsg⟩ := hfail
  refine ⟨msg, evolve_fail h.rule h.pert h.top hpk (by rw [hl1]; decide)
    (nb := fun _ => [0]) (by
      intro x hx
      rw [hl1, List.mem_singleton] at hx
      subst hx
      exact ⟨hl2, by rw [hl1]; exact fun y hy => hy⟩)
    (init := some (.list [(q, (p : Int))])) (by rw [hd, hl3]; rfl) (by
      intro x hx
      rw [hl1, List.mem_singleton] at hx
      subst hx
      rw [hd, h0]; rfl) (head_steps h hc hread (fun t ht => hns t (by omega)) _ _) hT (by rw [h.input]; simp) hr hpre
      ?_ ?_ (done := []) (x := 0) (rest := []) hl1 ?_ hmsg hfu⟩
  · intro m u hu
    refine ⟨u, ?_, fun _ => hu, fun h => by cases h⟩
    rw [h.input]
    simp only [callInput, dif_pos hp]
    exact headInput_continue hp (hns (T - 1) (by omega)) hu _ _ _
  · intro x hx
    rw [hl1, List.mem_singleton] at hx
    subst hx
    rw [dif_pos hp, List.getElem?_eq_getElem hp]
    exact hread (T - 1) (by omega) _ (List.getElem_mem hp)
  · intro d1 y d2 m u hd1
    cases d1 <;> simp at hd1

/-- C52, machines that never stop: `evolve` does not return. -/
theorem C52_forever (table : TMTable Q S) (tape : List S) (q : Q) (p : Nat) (term : Option Q) (maxT : Option Int)
    (cfg : Config Nat Int (Q × Int) S (HeadTM S) κ) (asInp : S → Inp S) (h : HeadCall cfg table asInp maxT term)
    (u : HeadTM S) (conds : List (Q × Int)) (hi : headInit tape q p term maxT = .ok (u, conds))
    (hnat : cfg.natLabel = id) (c : Nat → Conf Q S) (h0 : c 0 = ⟨q, p, tape⟩)
    (hc : ∀ T, Computation table.rule? c T) (hread : ∀ t, ∀ s ∈ (c t).tape, ReadsAs cfg asInp s)
    (hns : ∀ t, ¬ StopsAt maxT term c t)
    (r : Nat) (w : World Nat Int (HeadTM S)) (hr : w.heap[r]? = some headNetwork) (hw : w.user = u) (fuel : Nat) :
    evolve fuel cfg (some (.list conds)) r w = .error .outOfFuel := by
  obtain ⟨hpre, hcond⟩ := headPre_zero hi h0
  subst hcond hw
  have hd : initDict cfg (some (.list [(q, (p : Int))])) = [(0, (q, (p : Int)))] := by
    simp [initDict, Conds.toDict, hnat, Dict.ofPairs, Dict.set, List.zipIdx]
  obtain ⟨hl1, hl2, hl3⟩ := headNetwork_labels
  have hpk : cfg.PackOk := by intro hcomp; rw [h.compression] at hcomp; cases hcomp
  exact evolve_diverges h.rule h.pert h.top hpk (by rw [hl1]; decide)
    (nb := fun _ => [0]) (by
      intro x hx
      rw [hl1, List.mem_singleton] at hx
      subst hx
      exact ⟨hl2, by rw [hl1]; exact fun y hy => hy⟩)
    (init := some (.list [(q, (p : Int))])) (by rw [hd, hl3]; rfl) (by
      intro x hx
      rw [hl1, List.mem_singleton] at hx
      subst hx
      rw [hd, h0]; rfl)
    (fun T => head_steps h (hc T) (fun t _ => hread t) (fun t _ => hns t) _ _) (by rw [h.input]; simp) hr hpre fuel

/-- The constructor insists on a stop condition. -/
theorem C52_needs_stop (tape : List S) (q : Q) (p : Int) (term : Option Q) (maxT : Option Int) :
    (∃ e, headInit tape q p term maxT = .error e) ↔ term = none ∧ maxT = none := by
  unfold headInit
  cases term <;> cases maxT <;> simp

end

/-! ### Examples -/

/-- The configurations from `c0` (staying put when no step is defined). -/
def confRun {Q S : Type} (δ : Q → S → Option (Q × S × Int)) (c0 : Conf Q S) : Nat → Conf Q S
  | 0 => c0
  | t + 1 => (tmStep δ (confRun δ c0 t)).getD (confRun δ c0 t)

/-- The two-state busy beaver; state 2 is the halting state. -/
def Ex.beaver : TMTable Nat Int :=
  [(0, [(0, (1, 1, 2)), (1, (1, 1, 0))]), (1, [(0, (0, 1, 0)), (1, (2, 1, 2))])]

def Ex.headCfg (maxT : Option Int) (term : Option Nat) : Config Nat Int (Nat × Int) Int (HeadTM Int) Unit :=
  { rule := some (headRule Ex.beaver term), input := .fn (headInput .scalar maxT), topology := none, perturbation := none,
    past := [], order := .activitiesFirst, copyNetwork := true, compression := false, persistActs := true,
    persistNet := true, memoize := false, key := none, natLabel := id, labelIdx := fun x => some (x : Int),
    actAttr := fun _ => 0, labelCodec := natCodec, attrCodec := intCodec,
    valCodec := ⟨fun _ => .ok (), fun x => x⟩ }

theorem Ex.beaver_computation : Computation Ex.beaver.rule? (confRun Ex.beaver.rule? ⟨0, 3, [0, 0, 0, 0, 0, 0, 0]⟩) 7 := by
  have : ∀ t ∈ List.range 6, tmStep Ex.beaver.rule? (confRun Ex.beaver.rule? ⟨0, 3, [0, 0, 0, 0, 0, 0, 0]⟩ t) =
    some (confRun Ex.beaver.rule? ⟨0, 3, [0, 0, 0, 0, 0, 0, 0]⟩ (t + 1)) := by decide +kernel
  exact ⟨by decide, fun t ht => this t (by simpa using by omega)⟩

/-- The busy beaver stops after 6 steps in state 2: 7 states, four ones on the tape. -/
example : ∃ res, evolve 9 (Ex.headCfg none (some 2)) (some (.list [((0 : Nat), (3 : Int))])) 0
      ⟨[headNetwork], ⟨[[0, 0, 0, 0, 0, 0, 0]], 3, false⟩⟩ = .ok res ∧ res.states.length = 7 ∧
    res.acts (Ex.headCfg none (some 2)) 6 = some [(0, (2, 3))] ∧
    res.world.user.tapes[6]? = some [0, 1, 1, 1, 1, 0, 0] := by
  have hns : ∀ t ∈ List.range 6, ¬ StopsAt none (some 2) (confRun Ex.beaver.rule? ⟨0, 3, [0, 0, 0, 0, 0, 0, 0]⟩) t := by
    unfold StopsAt; decide +kernel
  have hst : StopsAt none (some 2) (confRun Ex.beaver.rule? ⟨0, 3, [0, 0, 0, 0, 0, 0, 0]⟩) (7 - 1) := by
    unfold StopsAt; decide +kernel
  obtain ⟨res, h1, h2, h3, h4⟩ := C52_head_centric Ex.beaver [0, 0, 0, 0, 0, 0, 0] 0 3 (some 2) none
    (Ex.headCfg none (some 2)) .scalar ⟨rfl, rfl, rfl, rfl, rfl, rfl, rfl⟩ ⟨[[0, 0, 0, 0, 0, 0, 0]], 3, false⟩ [(0, 3)] rfl
    rfl (confRun Ex.beaver.rule? ⟨0, 3, [0, 0, 0, 0, 0, 0, 0]⟩) 7 (by decide) rfl Ex.beaver_computation
    (fun _ _ _ _ => rfl) (fun t ht => hns t (by simpa using by omega)) hst 0
    ⟨[headNetwork], ⟨[[0, 0, 0, 0, 0, 0, 0]], 3, false⟩⟩ rfl rfl 9 (by decide)
  refine ⟨res, h1, h2, ?_, ?_⟩
  · rw [h3 6 (by decide)]; decide +kernel
  · rw [h4]; decide +kernel

/-- Without the terminating state the busy beaver gets stuck: state 2 has no rules. -/
example : ∃ msg, evolve 9 (Ex.headCfg (some 20) none) (some (.list [((0 : Nat), (3 : Int))])) 0
      ⟨[headNetwork], ⟨[[0, 0, 0, 0, 0, 0, 0]], 3, false⟩⟩ = .error (.exception msg) := by
  have hns : ∀ t ∈ List.range 7, ¬ StopsAt (some 20) none (confRun Ex.beaver.rule? ⟨0, 3, [0, 0, 0, 0, 0, 0, 0]⟩) t := by
    unfold StopsAt; decide +kernel
  exact C52_undefined Ex.beaver [0, 0, 0, 0, 0, 0, 0] 0 3 none (some 20)
    (Ex.headCfg (some 20) none) .scalar ⟨rfl, rfl, rfl, rfl, rfl, rfl, rfl⟩ ⟨[[0, 0, 0, 0, 0, 0, 0]], 3, false⟩ [(0, 3)] rfl
    rfl (confRun Ex.beaver.rule? ⟨0, 3, [0, 0, 0, 0, 0, 0, 0]⟩) 7 (by decide) rfl Ex.beaver_computation
    (fun _ _ _ _ => rfl) (fun t ht => hns t (by simpa using ht)) (by decide +kernel) 0
    ⟨[headNetwork], ⟨[[0, 0, 0, 0, 0, 0, 0]], 3, false⟩⟩ rfl rfl 9 (by decide)

/-- A machine that stays put in its only state never stops when the terminating state is another one. -/
example (fuel : Nat) : evolve fuel { Ex.headCfg none (some 1) with rule := some (headRule [(0, [(0, (0, 0, 1))])] (some 1)) }
    (some (.list [((0 : Nat), (0 : Int))])) 0 ⟨[headNetwork], ⟨[[0]], 0, false⟩⟩ = .error .outOfFuel := by
  refine C52_forever [(0, [(0, (0, 0, 1))])] [0] 0 0 (some 1) none _ .scalar ⟨rfl, rfl, rfl, rfl, rfl, rfl, rfl⟩
    ⟨[[0]], 0, false⟩ [(0, 0)] rfl rfl (fun _ => ⟨0, 0, [0]⟩) rfl (fun T => ⟨by decide, fun t _ => by rfl⟩)
    (fun _ _ _ => rfl) ?_ 0 _ rfl rfl fuel
  intro t
  simp [StopsAt]

/-- A configuration for symbols that are strings (lists of character codes). -/
def Ex.stringCfg : Config Nat Int (Nat × Int) (List Nat) (HeadTM (List Nat)) Unit :=
  { rule := some (headRule [(0, [([7, 8], (0, [7, 8], 2))])] none),
    input := .fn (headInput (fun s => .seq (s.map (fun ch => some [ch]))) (some 2)), topology := none, perturbation := none,
    past := [], order := .activitiesFirst, copyNetwork := true, compression := false, persistActs := true,
    persistNet := true, memoize := false, key := none, natLabel := id, labelIdx := fun x => some (x : Int),
    actAttr := fun _ => 0, labelCodec := natCodec, attrCodec := intCodec,
    valCodec := ⟨fun _ => .ok (), fun x => x⟩ }

/-- C52 is false for symbols that are strings of two or more characters: `evolve` takes a string for a sequence of inputs
(`evolution.py:269, 420`), so the node is given the first character.  The machine has a step, `evolve` raises. -/
theorem C52_long_symbols :
    tmStep (TMTable.rule? [(0, [([7, 8], (0, [7, 8], 2))])]) ⟨0, 0, [[7, 8]]⟩ = some ⟨0, 0, [[7, 8]]⟩ ∧
    HeadCall Ex.stringCfg [(0, [([7, 8], (0, [7, 8], 2))])] (fun s => .seq (s.map (fun ch => some [ch]))) (some 2) none ∧
    ∀ fuel, 1 ≤ fuel → evolve fuel Ex.stringCfg (some (.list [((0 : Nat), (0 : Int))])) 0
      ⟨[headNetwork], ⟨[[[7, 8]]], 0, false⟩⟩ = .error (.exception "no rule defined") := by
  refine ⟨by decide, ⟨rfl, rfl, rfl, rfl, rfl, rfl, rfl⟩, ?_⟩
  intro fuel hf
  obtain ⟨k, rfl⟩ : ∃ k, fuel = k + 1 := ⟨fuel - 1, by omega⟩
  rfl

/-! ## C53 -/

section
variable {Q S I κ : Type} [DecidableEq Q] [DecidableEq S] [DecidableEq κ]

/-- A call of `evolve` with the rule of a `TapeCentricTuringMachine` (no memoization: the rule moves the head). -/
structure TapeCall (cfg : Config Nat Int S I (TapeTM Q) κ) (table : TMTable Q S) (T : Nat) : Prop where
  rule : cfg.rule = some (tapeRule table)
  input : cfg.input = .timesteps T
  pert : cfg.perturbation = none
  top : cfg.topology = none
  memo : cfg.memoize = false
  persist : cfg.persistActs = true
  compression : cfg.compression = false

/-- State and position of the head after `t` steps. -/
def headAt (c : Nat → Conf Q S) (t : Nat) : Q × Nat := ((c t).state, (c t).pos)

def TapePre (c : Nat → Conf Q S) (t : Nat) (u : TapeTM Q) : Prop :=
  u.history = (List.range (t + 1)).map (headAt c)

def TapeMid (c : Nat → Conf Q S) (t : Nat) (done : List Nat) (u : TapeTM Q) : Prop :=
  u.history = (List.range (t + 1)).map (headAt c) ++ (if (c t).pos ∈ done then [headAt c (t + 1)] else [])

/-- The three neighbours of a cell. -/
def ring3 (n x : Nat) : List Nat := [(x + n - 1) % n, x, (x + 1) % n]

theorem ring3_dir {n x p : Nat} {d : Int} (h : moveHead n x d = some p) : pyGet (ring3 n x) d = .ok p := by
  unfold moveHead at h
  split at h
  · cases h; subst_vars; rfl
  · split at h
    · cases h; subst_vars; rfl
    · split at h
      · cases h; subst_vars; rfl
      · cases h

omit [DecidableEq Q] [DecidableEq S] in
theorem tapeMid_get {c : Nat → Conf Q S} {t : Nat} {done : List Nat} {u : TapeTM Q} (h : TapeMid c t done u) :
    pyGet u.history (((t + 1 : Nat) : Int) - 1) = .ok (headAt c t) := by
  have : ((t + 1 : Nat) : Int) - 1 = (t : Int) := by omega
  rw [this]
  apply pyGet_ofNat
  rw [h, List.getElem?_append_left (by simp)]
  simp

/-- The rule at a cell that does not carry the head. -/
theorem tapeRule_other (table : TMTable Q S) {c : Nat → Conf Q S} {t : Nat} {done : List Nat} {u : TapeTM Q}
    (h : TapeMid c t done u) (ctx : NodeCtx Nat Int S I) (ht : ctx.t = t + 1) (hx : ctx.node ≠ (c t).pos) :
    ∃ u', tapeRule table ctx u = .ok (⟨ctx.current, [], []⟩, u') ∧ u'.history = u.history := by
  have h1 := tapeMid_get h
  refine ⟨⟨u.history, t + 1⟩, ?_, rfl⟩
  have hu : (if ctx.t ≠ u.timestep then { u with timestep := ctx.t } else u) = ⟨u.history, t + 1⟩ := by
    rw [ht]
    split
    · rfl
    · rename_i hh
      have : t + 1 = u.timestep := Decidable.of_not_not hh
      rw [this]
  unfold tapeRule
  simp only
  rw [hu]
  simp only
  rw [h1]
  show (if ctx.node = (c t).pos then _ else _) = _
  rw [if_neg hx]

/-- The rule at the cell that carries the head. -/
theorem tapeRule_head (table : TMTable Q S) {c : Nat → Conf Q S} {t : Nat} {done : List Nat} {u : TapeTM Q}
    (h : TapeMid c t done u) (ctx : NodeCtx Nat Int S I) (ht : ctx.t = t + 1) (hx : ctx.node = (c t).pos) :
    tapeRule table ctx u = match table.rule? (c t).state ctx.current with
      | none => .error (.exception "no rule defined")
      | some (q', val, direction) => match pyGet ctx.neighbours direction with
        | .error e => .error e
        | .ok pos' => .ok (⟨val, [], []⟩, ⟨u.history ++ [(q', pos')], t + 1⟩) := by
  have h1 := tapeMid_get h
  have hu : (if ctx.t ≠ u.timestep then { u with timestep := ctx.t } else u) = ⟨u.history, t + 1⟩ := by
    rw [ht]
    split
    · rfl
    · rename_i hh
      have : t + 1 = u.timestep := Decidable.of_not_not hh
      rw [this]
  unfold tapeRule
  simp only
  rw [hu]
  simp only
  rw [h1]
  show (if ctx.node = (c t).pos then _ else _) = _
  rw [if_pos hx]
  rfl

/-- The steps of the machine in `evolve`. -/
theorem tape_steps {cfg : Config Nat Int S I (TapeTM Q) κ} {table : TMTable Q S} {T T' : Nat} (h : TapeCall cfg table T')
    (hTT : T ≤ T') {N : Net Nat Int} {n : Nat} (hl : N.labels.Perm (List.range n)) (dflt : S) {c : Nat → Conf Q S}
    (hn : (c 0).tape.length = n) (hc : Computation table.rule? c T) (ks : KeySpec Nat Int S I κ) (d : Dict Nat S) :
    RunSteps cfg ks (tapeRule table) N (ring3 n) d (fun t x => ((c t).tape[x]?).getD dflt) (fun _ => .timestep)
      (fun _ _ => none) (fun t _ u => TapePre c t u) (fun t done _ u => TapeMid c t done u) T := by
  refine ⟨?_, fun _ _ _ _ => rfl, ?_, ?_⟩
  · intro t m u ht hu
    refine ⟨u, ?_, ?_⟩
    · rw [h.input]
      simp only [callInput, Except.ok.injEq, Prod.mk.injEq, and_true]
      rw [if_neg (by omega)]
    · simpa [TapeMid, TapePre] using hu
  · intro t done x rest m u ht hlab hm
    obtain ⟨hp, hlen⟩ := computation_pos hc t (by omega)
    obtain ⟨s, s', dir, q1, q2, q3, q4⟩ := tmStep_some (hc.2 t ht)
    have hnd : N.labels.Nodup := hl.nodup_iff.2 List.nodup_range
    rw [hlab] at hnd
    have hxd : x ∉ done := by
      intro hx
      exact (List.nodup_append.1 hnd).2.2 x hx x (by simp) rfl
    unfold applyRule
    rw [h.memo]
    simp only [Bool.false_eq_true, if_false]
    by_cases hx : x = (c t).pos
    · have hr := tapeRule_head table hm (runCtx cfg N (ring3 n) d (fun t x => ((c t).tape[x]?).getD dflt)
        (fun _ _ => none) t x) rfl hx
      have hcur : (runCtx cfg N (ring3 n) d (fun t x => ((c t).tape[x]?).getD dflt) (fun _ _ => none) t x).current = s := by
        show ((c t).tape[x]?).getD dflt = s
        rw [hx, q1]; rfl
      rw [hcur, q2] at hr
      simp only at hr
      have hng : pyGet (runCtx cfg N (ring3 n) d (fun t x => ((c t).tape[x]?).getD dflt) (fun _ _ => none) t
          x).neighbours dir = .ok (c (t + 1)).pos := by
        show pyGet (ring3 n x) dir = _
        rw [hx, ← hn, ← hlen]
        exact ring3_dir q3
      rw [hng] at hr
      simp only at hr
      rw [hr]
      have hval : ((c (t + 1)).tape[x]?).getD dflt = s' := by
        rw [q4, hx, List.getElem?_set_self hp]; rfl
      refine ⟨m, _, by rw [hval], ?_⟩
      show u.history ++ _ = _
      rw [hm, if_neg (by rw [← hx]; exact hxd), if_pos (by rw [← hx]; simp)]
      simp [headAt]
    · obtain ⟨u', e1, e2⟩ := tapeRule_other table hm (runCtx cfg N (ring3 n) d (fun t x => ((c t).tape[x]?).getD dflt)
        (fun _ _ => none) t x) rfl hx
      rw [e1]
      have hval : ((c (t + 1)).tape[x]?).getD dflt = (runCtx cfg N (ring3 n) d
          (fun t x => ((c t).tape[x]?).getD dflt) (fun _ _ => none) t x).current := by
        show ((c (t + 1)).tape[x]?).getD dflt = ((c t).tape[x]?).getD dflt
        rw [q4, List.getElem?_set_ne (Ne.symm hx)]
      refine ⟨m, u', by rw [hval], ?_⟩
      show u'.history = _
      rw [e2, hm]
      have : ((c t).pos ∈ done ++ [x]) ↔ (c t).pos ∈ done := by
        simp [Ne.symm hx]
      simp only [this]
  · intro t m u ht hm
    obtain ⟨hp, hlen⟩ := computation_pos hc t (by omega)
    have hmem : (c t).pos ∈ N.labels := by rw [hl.mem_iff, List.mem_range]; omega
    unfold TapeMid at hm
    rw [if_pos hmem] at hm
    unfold TapePre
    rw [hm, List.range_succ (n := t + 1)]
    simp

/-- The ring of a tape of at least three cells. -/
theorem tapeNetwork_ring {n : Nat} (hn : 3 ≤ n) {N : Net Nat Int} (hN : tapeNetwork n = .ok N) :
    N.labels.Perm (List.range n) ∧ ∀ x ∈ N.labels, specNbrs N x = some (ring3 n x) ∧ ∀ y ∈ ring3 n x, y ∈ N.labels := by
  obtain ⟨N', rs, e1, e2, e3, e4⟩ := C43_left_to_right n 1 hn (by omega)
  unfold tapeNetwork at hN
  rw [e1] at hN
  cases hN
  refine ⟨e3, fun x hx => ?_⟩
  rw [e3.mem_iff, List.mem_range] at hx
  refine ⟨?_, ?_⟩
  · simp only [specNbrs, e2]
    rw [e4 x hx, ringCell_three hx hn]; rfl
  · intro y hy
    rw [e3.mem_iff, List.mem_range]
    simp only [ring3, List.mem_cons, List.not_mem_nil, or_false] at hy
    rcases hy with rfl | rfl | rfl
    · exact Nat.mod_lt _ (by omega)
    · exact hx
    · exact Nat.mod_lt _ (by omega)

/-- C53.  The machine `TapeCentricTuringMachine(n, table, q, p)` with `n ≥ 3` and `c` the computation on the circular tape:
`evolve` with the tape as initial conditions returns `T` states; state `t` holds the tape after `t` steps, and the head
history of the object is the sequence of states and positions. -/
theorem C53_tape_centric (table : TMTable Q S) (n : Nat) (hn : 3 ≤ n) (tape : List S) (hlen : tape.length = n) (q : Q)
    (p : Nat) (cfg : Config Nat Int S I (TapeTM Q) κ) (T : Nat) (hT : 1 ≤ T) (h : TapeCall cfg table T)
    (hnat : cfg.natLabel = id) (c : Nat → Conf Q S) (h0 : c 0 = ⟨q, p, tape⟩) (hc : Computation table.rule? c T)
    (N : Net Nat Int) (hN : tapeNetwork n = .ok N) (r : Nat) (w : World Nat Int (TapeTM Q)) (hr : w.heap[r]? = some N)
    (hw : w.user = tapeInit q p) (fuel : Nat) (hfu : T ≤ fuel) :
    ∃ res, evolve fuel cfg (some (.list tape)) r w = .ok res ∧ res.states.length = T ∧
      (∀ t, t < T → ∃ d, res.acts cfg t = some d ∧ d.length = n ∧ ∀ x, x < n → d.get? x = (c t).tape[x]?) ∧
      res.world.user.history = (List.range T).map (headAt c) := by
  obtain ⟨hl, hnb⟩ := tapeNetwork_ring hn hN
  obtain ⟨i1, _, i2⟩ := initDict_list hnat tape
  have dflt : S := tape[0]
  have hn0 : (c 0).tape.length = n := by rw [h0]; exact hlen
  have hmem : ∀ x, x ∈ N.labels ↔ x < n := fun x => by rw [hl.mem_iff, List.mem_range]
  have hf0 : ∀ x, x < n → (initDict cfg (some (.list tape))).get? x = some (((c 0).tape[x]?).getD dflt) := by
    intro x hx
    have hx' : x < tape.length := by omega
    rw [i2 x hx', h0]
    simp only [List.getElem?_eq_getElem hx', Option.getD_some]
  have hR : RunSpec cfg (effectiveKey cfg N) (tapeRule table) N (ring3 n) (initDict cfg (some (.list tape)))
      (fun t x => ((c t).tape[x]?).getD dflt) (fun _ => .timestep)
      (fun _ _ => none) (fun t _ u => TapePre c t u) (fun t done _ u => TapeMid c t done u) T :=
    ⟨tape_steps h (Nat.le_refl _) hl dflt hn0 hc _ _, fun m u hu => ⟨u, by
      rw [h.input]
      simp only [callInput, Except.ok.injEq, Prod.mk.injEq, and_true]
      rw [if_pos trivial]⟩⟩
  have hpk : cfg.PackOk := by intro hcomp; rw [h.compression] at hcomp; cases hcomp
  obtain ⟨res, m, u', ext, e1, _, e3, e4, e5⟩ := evolve_run h.rule h.pert h.top hpk (hl.nodup_iff.2 List.nodup_range)
    hnb (init := some (.list tape)) (by
      rw [i1, hlen]
      have := hl.length_eq
      simp [Net.labels, Dict.keys, Net.size] at this ⊢
      omega) (fun x hx => hf0 x ((hmem x).1 hx)) hR hT (by rw [h.input]; simp) hr
      (by rw [hw]; simp [TapePre, tapeInit, headAt, h0]) hfu
  obtain ⟨s1, s2⟩ := shows_plain_of h.persist h.compression (by omega) hl (i1.trans hlen) hf0 e3
  refine ⟨res, e1, s1, ?_, ?_⟩
  · intro t ht
    obtain ⟨d, d1, d2, d3⟩ := s2 t ht
    refine ⟨d, d1, d2, fun x hx => ?_⟩
    obtain ⟨_, hlt⟩ := computation_pos hc t ht
    have hx' : x < (c t).tape.length := by omega
    rw [d3 x hx]
    simp only [List.getElem?_eq_getElem hx', Option.getD_some]
  · rw [h.input] at e5
    simp only [callInput, Except.ok.injEq, Prod.mk.injEq] at e5
    rw [← e5.2]
    have := e4
    unfold TapePre at this
    rw [this, Nat.sub_add_cancel hT]

/-- C53, undefined transitions: when the machine has to take a step for which the table has no entry, `evolve` raises. -/
theorem C53_undefined (table : TMTable Q S) (n : Nat) (hn : 3 ≤ n) (tape : List S) (hlen : tape.length = n) (q : Q)
    (p : Nat) (cfg : Config Nat Int S I (TapeTM Q) κ) (T T' : Nat) (hT : 1 ≤ T) (hTT : T < T') (h : TapeCall cfg table T')
    (hnat : cfg.natLabel = id) (c : Nat → Conf Q S) (h0 : c 0 = ⟨q, p, tape⟩) (hc : Computation table.rule? c T)
    (hund : ∀ s, (c (T - 1)).tape[(c (T - 1)).pos]? = some s → table.rule? (c (T - 1)).state s = none)
    (N : Net Nat Int) (hN : tapeNetwork n = .ok N) (r : Nat) (w : World Nat Int (TapeTM Q)) (hr : w.heap[r]? = some N)
    (hw : w.user = tapeInit q p) (fuel : Nat) (hfu : T ≤ fuel) :
    ∃ msg, evolve fuel cfg (some (.list tape)) r w = .error (.exception msg) := by
  obtain ⟨hl, hnb⟩ := tapeNetwork_ring hn hN
  obtain ⟨i1, _, i2⟩ := initDict_list hnat tape
  have dflt : S := tape[0]
  have hn0 : (c 0).tape.length = n := by rw [h0]; exact hlen
  have hmem : ∀ x, x ∈ N.labels ↔ x < n := fun x => by rw [hl.mem_iff, List.mem_range]
  have hf0 : ∀ x, x < n → (initDict cfg (some (.list tape))).get? x = some (((c 0).tape[x]?).getD dflt) := by
    intro x hx
    have hx' : x < tape.length := by omega
    rw [i2 x hx', h0]
    simp only [List.getElem?_eq_getElem hx', Option.getD_some]
  have hpk : cfg.PackOk := by intro hcomp; rw [h.compression] at hcomp; cases hcomp
  obtain ⟨hp, hpl⟩ := computation_pos hc (T - 1) (by omega)
  obtain ⟨done, rest, hsplit⟩ := List.append_of_mem ((hmem (c (T - 1)).pos).2 (by omega))
  have hnd : N.labels.Nodup := hl.nodup_iff.2 List.nodup_range
  rw [hsplit] at hnd
  refine ⟨"no rule defined", evolve_fail h.rule h.pert h.top hpk (hl.nodup_iff.2 List.nodup_range)
    hnb (init := some (.list tape)) (by
      rw [i1, hlen]
      have := hl.length_eq
      simp [Net.labels, Dict.keys, Net.size] at this ⊢
      omega) (fun x hx => hf0 x ((hmem x).1 hx)) (tape_steps h (by omega) hl dflt hn0 hc _ _) hT (by rw [h.input]; simp) hr
      (by rw [hw]; simp [TapePre, tapeInit, headAt, h0]) ?_ (fun _ _ => rfl) hsplit ?_ ?_ hfu⟩
  · intro m u hu
    refine ⟨u, ?_, by simpa [TapeMid, TapePre] using hu⟩
    rw [h.input]
    simp only [callInput, Except.ok.injEq, Prod.mk.injEq, and_true]
    rw [if_neg (by omega)]
  · intro d1 y d2 m u hd hm
    have hy : y ≠ (c (T - 1)).pos := by
      intro hy
      refine (List.nodup_append.1 hnd).2.2 y (by rw [hd]; simp) (c (T - 1)).pos (by simp) hy
    obtain ⟨u', g1, g2⟩ := tapeRule_other table hm (runCtx cfg N (ring3 n) (initDict cfg (some (.list tape)))
      (fun t x => ((c t).tape[x]?).getD dflt) (fun _ _ => none) (T - 1) y) rfl hy
    refine ⟨_, m, u', (by
      unfold applyRule
      rw [h.memo]
      simp only [Bool.false_eq_true, if_false]
      rw [g1]), ?_⟩
    show u'.history = _
    rw [g2, hm]
    have : ((c (T - 1)).pos ∈ d1 ++ [y]) ↔ (c (T - 1)).pos ∈ d1 := by
      simp [Ne.symm hy]
    simp only [this]
  · intro m u hm
    have g := tapeRule_head table hm (runCtx cfg N (ring3 n) (initDict cfg (some (.list tape)))
      (fun t x => ((c t).tape[x]?).getD dflt) (fun _ _ => none) (T - 1) (c (T - 1)).pos) rfl rfl
    have hcur : (runCtx cfg N (ring3 n) (initDict cfg (some (.list tape))) (fun t x => ((c t).tape[x]?).getD dflt)
        (fun _ _ => none) (T - 1) (c (T - 1)).pos).current = (c (T - 1)).tape[(c (T - 1)).pos] := by
      show ((c (T - 1)).tape[(c (T - 1)).pos]?).getD dflt = _
      rw [List.getElem?_eq_getElem hp, Option.getD_some]
    rw [hcur, hund _ (List.getElem?_eq_getElem hp)] at g
    unfold applyRule
    rw [h.memo]
    simp only [Bool.false_eq_true, if_false]
    rw [g]

end

def Ex.tapeCfg (T : Nat) : Config Nat Int Int Int (TapeTM Nat) Unit :=
  { rule := some (tapeRule Ex.beaver), input := .timesteps T, topology := none, perturbation := none,
    past := [], order := .activitiesFirst, copyNetwork := true, compression := false, persistActs := true,
    persistNet := true, memoize := false, key := none, natLabel := id, labelIdx := fun x => some (x : Int),
    actAttr := id, labelCodec := natCodec, attrCodec := intCodec, valCodec := intCodec }

/-- The busy beaver again; timestep 8 would raise. -/
example : ∃ N res, tapeNetwork 7 = .ok N ∧
    evolve 7 (Ex.tapeCfg 7) (some (.list [0, 0, 0, 0, 0, 0, 0])) 0 ⟨[N], tapeInit 0 3⟩ = .ok res ∧
    res.world.user.history = [(0, 3), (1, 4), (0, 3), (1, 2), (0, 1), (1, 2), (2, 3)] ∧
    ∃ msg, evolve 7 (Ex.tapeCfg 8) (some (.list [0, 0, 0, 0, 0, 0, 0])) 0 ⟨[N], tapeInit 0 3⟩ = .error (.exception msg) := by
  obtain ⟨N, _, hN, _⟩ := C43_left_to_right 7 1 (by omega) (by omega)
  obtain ⟨res, h1, h2, h3, h4⟩ := C53_tape_centric Ex.beaver 7 (by decide) [0, 0, 0, 0, 0, 0, 0] rfl 0 3 (Ex.tapeCfg 7) 7
    (by decide) ⟨rfl, rfl, rfl, rfl, rfl, rfl, rfl⟩ rfl (confRun Ex.beaver.rule? ⟨0, 3, [0, 0, 0, 0, 0, 0, 0]⟩) rfl
    Ex.beaver_computation N hN 0 ⟨[N], tapeInit 0 3⟩ rfl rfl 7 (by decide)
  refine ⟨N, res, hN, h1, ?_, ?_⟩
  · rw [h4]; decide +kernel
  · refine C53_undefined Ex.beaver 7 (by decide) [0, 0, 0, 0, 0, 0, 0] rfl 0 3 (Ex.tapeCfg 8) 7 8
      (by decide) (by decide) ⟨rfl, rfl, rfl, rfl, rfl, rfl, rfl⟩ rfl
      (confRun Ex.beaver.rule? ⟨0, 3, [0, 0, 0, 0, 0, 0, 0]⟩) rfl
      Ex.beaver_computation ?_ N hN 0 ⟨[N], tapeInit 0 3⟩ rfl rfl 7 (by decide)
    have : ((confRun Ex.beaver.rule? ⟨0, 3, [0, 0, 0, 0, 0, 0, 0]⟩ (7 - 1)).state) = 2 := by decide +kernel
    intro s _
    rw [this]; rfl

/-- Directions outside `0, 1, 2`: the head-centric machine refuses them, the tape-centric one takes -1, -2, -3 for right,
stay, left (Python's negative indices) and raises `IndexError` otherwise. -/
theorem C53_directions (n x : Nat) (hx : x < n) (d : Int) (hd : moveHead n x d = none) :
    (∃ msg, nextPos d (x : Int) n = .error (.exception msg)) ∧
    pyGet (ring3 n x) d = if d = -1 then .ok ((x + 1) % n) else if d = -2 then .ok x
      else if d = -3 then .ok ((x + n - 1) % n) else .error .indexError := by
  refine ⟨(nextPos_eq hx d).2 hd, ?_⟩
  have hd' : d ≠ 0 ∧ d ≠ 1 ∧ d ≠ 2 := by
    refine ⟨?_, ?_, ?_⟩ <;> (rintro rfl; simp [moveHead] at hd)
  split
  · subst_vars; rfl
  · split
    · subst_vars; rfl
    · split
      · subst_vars; rfl
      · have : pyIndex (ring3 n x).length d = none := by
          rw [pyIndex_eq_none_iff]; simp [ring3]; omega
        unfold pyGet
        rw [this]
example : moveHead 5 2 (-1) = none ∧ pyGet (ring3 5 2) (-1) = .ok 3 := by decide

end Verif
