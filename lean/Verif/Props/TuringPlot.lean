import Verif.Model.TuringPlot
import Verif.Props.Turing
/-! # Annotations of Turing machines: C83 -/

namespace Verif

section
variable {Q S W α : Type}

/-- The table of annotations of a computation: row `t` has the width of the tape, shows the state after `t` steps at the position
of the head and nothing anywhere else. -/
def HeadTable (str : Q → W) (c : Nat → Conf Q S) (T n : Nat) (table : List (List (Option W))) : Prop :=
  table.length = T ∧ ∀ t, t < T → ∃ row, table[t]? = some row ∧ row.length = n ∧
    ∀ x, x < n → row[x]? = some (if x = (c t).pos then some (str (c t).state) else none)

theorem annotate_ok {table : List (List (Option W))} {i : Nat} {row : List (Option W)} (h : table[i]? = some row) {k : Nat}
    (hk : k < row.length) (v : W) : annotate table i (k : Int) v = .ok (table.set i (row.set k (some v))) := by
  unfold annotate
  rw [h]
  simp only [pySet_natCast row hk]

/-- The loops: entry `i` of the list annotates row `j + i`. -/
theorem annotate_loop (g : List (List (Option W)) → α × Nat → Except Err (List (List (Option W)))) (key : α → Nat)
    (val : α → W) (n : Nat) :
    ∀ (l : List α), (∀ a ∈ l, ∀ T i, g T (a, i) = annotate T i (key a : Int) (val a)) → (∀ a ∈ l, key a < n) →
      ∀ (j : Nat) (T0 : List (List (Option W))), j + l.length ≤ T0.length →
      (∀ i, j ≤ i → i < T0.length → T0[i]? = some (List.replicate n none)) →
      ∃ T1, (l.zipIdx j).foldlM g T0 = .ok T1 ∧ T1.length = T0.length ∧ (∀ i, i < j → T1[i]? = T0[i]?) ∧
        ∀ i (h : i < l.length), T1[j + i]? = some ((List.replicate n none).set (key l[i]) (some (val l[i]))) := by
  intro l
  induction l with
  | nil => intro _ _ j T0 _ _; exact ⟨T0, rfl, rfl, fun _ _ => rfl, fun i h => absurd h (by simp)⟩
  | cons a l ih =>
    intro hg hk j T0 hl h0
    simp only [List.length_cons] at hl
    have hrow := h0 j (Nat.le_refl j) (by omega)
    have hstep : g T0 (a, j) = .ok (T0.set j ((List.replicate n none).set (key a) (some (val a)))) := by
      rw [hg a (by simp), annotate_ok hrow (by simpa using hk a (by simp))]
    obtain ⟨T1, t1, t2, t3, t4⟩ := ih (fun b hb => hg b (by simp [hb])) (fun b hb => hk b (by simp [hb])) (j + 1)
      (T0.set j ((List.replicate n none).set (key a) (some (val a)))) (by simp; omega) (by
        intro i hi hi'
        rw [List.getElem?_set_ne (by omega)]
        exact h0 i (by omega) (by simpa using hi'))
    refine ⟨T1, ?_, by simpa using t2, ?_, ?_⟩
    · rw [List.zipIdx_cons, List.foldlM_cons, hstep]
      exact t1
    · intro i hi
      rw [t3 i (by omega), List.getElem?_set_ne (by omega)]
    · intro i hi
      cases i with
      | zero =>
        rw [Nat.add_zero, t3 j (by omega), List.getElem?_set_self (by omega)]
        rfl
      | succ i =>
        have := t4 i (by simpa using hi)
        rw [show j + (i + 1) = j + 1 + i by omega, this]
        rfl

/-- The number of rows is the number of states if every state has activities. -/
theorem activitiesOverTime_map {L V : Type} [DecidableEq L] (le : L → L → Bool) (l : List (Option (Dict L V)))
    (h : ∀ s ∈ l, ∃ d : Dict L V, s = some d ∧ d ≠ []) :
    activitiesOverTime le l = l.map (fun s => activityRow le (s.getD [])) := by
  unfold activitiesOverTime
  induction l with
  | nil => rfl
  | cons s l ih =>
    obtain ⟨d, rfl, hd⟩ := h s (by simp)
    rw [List.filterMap_cons]
    cases d with
    | nil => exact absurd rfl hd
    | cons p d =>
      simp only [List.map_cons, Option.getD_some]
      rw [ih (fun s' hs => h s' (by simp [hs]))]

theorem headTable_of {str : Q → W} {c : Nat → Conf Q S} {T n : Nat} {table : List (List (Option W))} (hl : table.length = T)
    (h : ∀ t, t < T → table[t]? = some ((List.replicate n none).set (c t).pos (some (str (c t).state)))) :
    HeadTable str c T n table := by
  refine ⟨hl, fun t ht => ⟨_, h t ht, by simp, ?_⟩⟩
  intro x hx
  rw [List.getElem?_set]
  by_cases hxp : x = (c t).pos
  · subst hxp; simp [hx]
  · rw [if_neg (Ne.symm hxp), if_neg hxp]; simp [hx]

end

section
variable {Q S W I κ : Type} [DecidableEq Q] [DecidableEq S] [DecidableEq κ]

omit [DecidableEq Q] [DecidableEq S] in
theorem computation_width {δ : Q → S → Option (Q × S × Int)} {c : Nat → Conf Q S} {T : Nat} (hc : Computation δ c T) :
    ∀ t, t < T → (c t).pos < (c 0).tape.length ∧ (c t).tape.length = (c 0).tape.length := by
  intro t ht
  obtain ⟨h1, h2⟩ := computation_pos hc t ht
  exact ⟨by omega, h2⟩

/-- **C83**, tape-centric machine: after the run of C53, `head_activities` of the trajectory is the table of the states at
the positions of the head. -/
theorem C83_tape (table : TMTable Q S) (n : Nat) (hn : 3 ≤ n) (tape : List S) (hlen : tape.length = n) (q : Q)
    (p : Nat) (cfg : Config Nat Int S I (TapeTM Q) κ) (T : Nat) (hT : 1 ≤ T) (h : TapeCall cfg table T)
    (hnat : cfg.natLabel = id) (c : Nat → Conf Q S) (h0 : c 0 = ⟨q, p, tape⟩) (hc : Computation table.rule? c T)
    (N : Net Nat Int) (hN : tapeNetwork n = .ok N) (r : Nat) (w : World Nat Int (TapeTM Q)) (hr : w.heap[r]? = some N)
    (hw : w.user = tapeInit q p) (fuel : Nat) (hfu : T ≤ fuel) (str : Q → W) :
    ∃ res ann, evolve fuel cfg (some (.list tape)) r w = .ok res ∧
      tapeHeadActivities str n res.world.user.history ((List.range res.states.length).map (res.acts cfg)) = .ok ann ∧
      HeadTable str c T n ann := by
  obtain ⟨res, e1, e2, e3, e4⟩ := C53_tape_centric table n hn tape hlen q p cfg T hT h hnat c h0 hc N hN r w hr hw fuel hfu
  have hrows : (activitiesOverTime (fun a b => decide (a ≤ b))
      ((List.range res.states.length).map (res.acts cfg))).length = T := by
    rw [activitiesOverTime_map]
    · simp [e2]
    · intro s hs
      simp only [List.mem_map, List.mem_range] at hs
      obtain ⟨t, ht, rfl⟩ := hs
      obtain ⟨d, d1, d2, _⟩ := e3 t (by omega)
      refine ⟨d, d1, ?_⟩
      rintro rfl
      simp at d2
      omega
  obtain ⟨ann, a1, a2, a3, a4⟩ := annotate_loop (annotateTape str) (fun a : Q × Nat => a.2) (fun a => str a.1) n
    ((List.range T).map (headAt c)) (fun a _ T i => rfl) (by
      intro a ha
      simp only [List.mem_map, List.mem_range] at ha
      obtain ⟨t, ht, rfl⟩ := ha
      have := (computation_width hc t ht).1
      rw [h0] at this
      simp only [headAt] at this ⊢
      omega) 0 (List.replicate T (List.replicate n none)) (by simp) (by
      intro i _ hi
      simp at hi
      simp [hi])
  refine ⟨res, ann, e1, ?_, headTable_of (by simpa using a2) ?_⟩
  · unfold tapeHeadActivities
    simp only [hrows, e4]
    exact a1
  · intro t ht
    have := a4 t (by simpa using ht)
    simpa [headAt] using this

/-- **C83**, head-centric machine: after the run of C52, `activities_for_plotting` gives the sequence of tapes and the table of
the states at the positions of the head. -/
theorem C83_head (table : TMTable Q S) (tape : List S) (q : Q) (p : Nat) (term : Option Q) (maxT : Option Int)
    (cfg : Config Nat Int (Q × Int) S (HeadTM S) κ) (asInp : S → Inp S) (h : HeadCall cfg table asInp maxT term)
    (u : HeadTM S) (conds : List (Q × Int)) (hi : headInit tape q p term maxT = .ok (u, conds))
    (hnat : cfg.natLabel = id) (c : Nat → Conf Q S) (T : Nat) (hT : 1 ≤ T) (h0 : c 0 = ⟨q, p, tape⟩)
    (hc : Computation table.rule? c T) (hread : ∀ t, t < T → ∀ s ∈ (c t).tape, ReadsAs cfg asInp s)
    (hns : ∀ t, t + 1 < T → ¬ StopsAt maxT term c t) (hst : StopsAt maxT term c (T - 1))
    (r : Nat) (w : World Nat Int (HeadTM S)) (hr : w.heap[r]? = some headNetwork) (hw : w.user = u)
    (fuel : Nat) (hfu : T ≤ fuel) (str : Q → W) :
    ∃ res ann, evolve fuel cfg (some (.list conds)) r w = .ok res ∧
      headActivitiesForPlotting str res.world.user.tapes ((List.range res.states.length).map (res.acts cfg)) =
        .ok ((List.range T).map (fun t => (c t).tape), ann) ∧
      HeadTable str c T tape.length ann := by
  obtain ⟨res, e1, e2, e3, e4⟩ := C52_head_centric table tape q p term maxT cfg asInp h u conds hi hnat c T hT h0 hc hread hns
    hst r w hr hw fuel hfu
  have hacts : activitiesOverTime (fun a b => decide (a ≤ b)) ((List.range res.states.length).map (res.acts cfg)) =
      (List.range T).map (fun t => [((c t).state, ((c t).pos : Int))]) := by
    rw [activitiesOverTime_map]
    · rw [List.map_map, e2]
      apply List.map_congr_left
      intro t ht
      rw [List.mem_range] at ht
      simp only [Function.comp, e3 t ht, Option.getD_some]
      unfold activityRow
      simp [Dict.keys, Dict.get?]
    · intro s hs
      simp only [List.mem_map, List.mem_range] at hs
      obtain ⟨t, ht, rfl⟩ := hs
      exact ⟨_, e3 t (by omega), by simp⟩
  have hw0 : (c 0).tape.length = tape.length := by rw [h0]
  have hlast : ((List.range T).map (fun t => (c t).tape)).getLast? = some (c (T - 1)).tape := by
    rw [List.getLast?_eq_getElem?]
    simp [show T - 1 < T by omega]
  have hlen : (c (T - 1)).tape.length = tape.length := by rw [(computation_width hc (T - 1) (by omega)).2, hw0]
  obtain ⟨ann, a1, a2, a3, a4⟩ := annotate_loop (annotateHead str) (fun a : List (Q × Int) => ((a[0]?.map Prod.snd).getD 0).toNat)
    (fun a => str ((a[0]?.map Prod.fst).getD q)) tape.length
    ((List.range T).map (fun t => [((c t).state, ((c t).pos : Int))])) (by
      intro a ha T i
      simp only [List.mem_map, List.mem_range] at ha
      obtain ⟨t, ht, rfl⟩ := ha
      rfl) (by
      intro a ha
      simp only [List.mem_map, List.mem_range] at ha
      obtain ⟨t, ht, rfl⟩ := ha
      have := (computation_width hc t ht).1
      simp
      omega) 0 (List.replicate T (List.replicate tape.length none)) (by simp) (by
      intro i _ hi
      simp at hi
      simp [hi])
  refine ⟨res, ann, e1, ?_, headTable_of (by simpa using a2) ?_⟩
  · unfold headActivitiesForPlotting
    simp only [hacts, e4, hlast, hlen, List.length_map, List.length_range, a1]
  · intro t ht
    have := a4 t (by simpa using ht)
    simpa using this

end

/-- The busy beaver of C53. -/
example : ∃ N res ann, tapeNetwork 7 = .ok N ∧
    evolve 7 (Ex.tapeCfg 7) (some (.list [0, 0, 0, 0, 0, 0, 0])) 0 ⟨[N], tapeInit 0 3⟩ = .ok res ∧
    tapeHeadActivities toString 7 res.world.user.history
      ((List.range res.states.length).map (res.acts (Ex.tapeCfg 7))) = .ok ann ∧
    HeadTable toString (confRun Ex.beaver.rule? ⟨0, 3, [0, 0, 0, 0, 0, 0, 0]⟩) 7 7 ann := by
  obtain ⟨N, _, hN, _⟩ := C43_left_to_right 7 1 (by omega) (by omega)
  obtain ⟨res, ann, h1, h2, h3⟩ := C83_tape Ex.beaver 7 (by decide) [0, 0, 0, 0, 0, 0, 0] rfl 0 3 (Ex.tapeCfg 7) 7
    (by decide) ⟨rfl, rfl, rfl, rfl, rfl, rfl, rfl⟩ rfl (confRun Ex.beaver.rule? ⟨0, 3, [0, 0, 0, 0, 0, 0, 0]⟩) rfl
    Ex.beaver_computation N hN 0 ⟨[N], tapeInit 0 3⟩ rfl rfl 7 (by decide) toString
  exact ⟨N, res, ann, hN, h1, h2, h3⟩

/-- A tape-centric machine that walks to the right and writes 1. -/
def Ex.walker : TMTable Nat Int := [(0, [(0, (0, 1, 2)), (1, (0, 1, 2))])]

def Ex.walkCfg : Config Nat Int Int Int (TapeTM Nat) Unit := { Ex.tapeCfg 2 with rule := some (tapeRule Ex.walker) }

/-- The annotations of the walker. -/
example : tapeHeadActivities (fun q : Nat => q) 3 [(0, 0), (0, 1)] [some [(0, (0 : Int))], some [(0, 1)]] =
    .ok [[some 0, none, none], [none, some 0, none]] := by decide +kernel

/-- Two runs of the walker and the annotations of the second. -/
def Ex.walkTwice : Option (Except Err (List (List (Option Nat)))) :=
  match tapeNetwork 3 with
  | .error _ => none
  | .ok N => match evolve 2 Ex.walkCfg (some (.list [0, 0, 0])) 0 ⟨[N], tapeInit 0 0⟩ with
    | .error _ => none
    | .ok res => match evolve 2 Ex.walkCfg (some (.list [0, 0, 0])) 0 ⟨[N], res.world.user⟩ with
      | .error _ => none
      | .ok res' => some (tapeHeadActivities (fun q : Nat => q) 3 res'.world.user.history
          ((List.range res'.states.length).map (res'.acts Ex.walkCfg)))

/-- **C83**: an object can be used for one run only.  The history of the head is not reset: a second call of `evolve` with the same
machine appends to it, and `head_activities` of the second trajectory raises `IndexError`. -/
theorem C83_second_run : ∃ N res res', tapeNetwork 3 = .ok N ∧
    evolve 2 Ex.walkCfg (some (.list [0, 0, 0])) 0 ⟨[N], tapeInit 0 0⟩ = .ok res ∧
    evolve 2 Ex.walkCfg (some (.list [0, 0, 0])) 0 ⟨[N], res.world.user⟩ = .ok res' ∧
    tapeHeadActivities (fun q : Nat => q) 3 res'.world.user.history
      ((List.range res'.states.length).map (res'.acts Ex.walkCfg)) = .error .indexError := by
  have key : Ex.walkTwice = some (.error .indexError) := by decide +kernel
  unfold Ex.walkTwice at key
  split at key
  · cases key
  · rename_i N hN
    split at key
    · cases key
    · rename_i res h1
      split at key
      · cases key
      · rename_i res' h2
        exact ⟨N, res, res', hN, h1, h2, Option.some.inj key⟩

end Verif
