import Verif.Props.Topology
import Verif.Props.Rules
import Verif.Props.RuleTables
import Verif.Props.Utils
import Verif.Props.Turing
import Verif.Props.PlotGrid
import Verif.Props.Hexplot
import Verif.Props.Results
/-! # C166: which exception is raised

`Verif/Props/Errors.lean` has sufficient conditions for some of these exceptions (C30, C34, C41, C52, C69, C71, C127); here they are equivalences.
Messages with a formatted value are modelled by their fixed part, except that of the layouts. -/

namespace Verif
open Spec

/-- C166: `adjacency.cellular_automaton` looks at the number of cells first, then at the boundary; a radius above the number of cells is an index out of
range. -/
theorem C166_ring (n r : Nat) (boundary : String) (e : Err) : caAdjacency n r boundary = .error e ↔
    (n < 3 ∧ e = .exception "There must be at least 3 cells") ∨
    (3 ≤ n ∧ boundary ≠ "periodic" ∧ e = .exception "unsupported boundary condition") ∨
    (3 ≤ n ∧ boundary = "periodic" ∧ n < r ∧ e = .indexError) := by
  by_cases hn : n < 3
  · have : caAdjacency n r boundary = .error (.exception "There must be at least 3 cells") := if_pos hn
    rw [this]
    simp [hn, Nat.not_le.2 hn, eq_comm]
  · have hn' : 3 ≤ n := by omega
    by_cases hb : boundary = "periodic"
    · subst hb
      by_cases hr : n < r
      · rw [C40_radius_too_large n r hn' hr]
        simp [hn, hn', hr, eq_comm]
      · obtain ⟨M, h, _⟩ := C40_ring n r hn' (by omega)
        rw [h]
        simp [hn, hr]
    · have : caAdjacency n r boundary = .error (.exception "unsupported boundary condition") := by
        unfold caAdjacency
        rw [if_neg hn, if_neg hb]
      rw [this]
      simp [hn, hn', hb, eq_comm]

/-- C166: `adjacency.cellular_automaton2d` looks at the number of cells first, then at the boundary, then at the neighbourhood. -/
theorem C166_torus (rows cols r : Nat) (nb boundary : String) (e : Err) :
    caAdjacency2d rows cols r nb boundary = .error e ↔
      (rows * cols < 9 ∧ e = .exception "There must be at least 9 cells") ∨
      (9 ≤ rows * cols ∧ boundary ≠ "periodic" ∧ e = .exception "unsupported boundary condition") ∨
      (9 ≤ rows * cols ∧ boundary = "periodic" ∧ nb ∉ ["Moore", "von Neumann", "Hex"] ∧ e = .exception "neighbourhood type not supported") := by
  have raises := C41_raises_iff rows cols r nb boundary
  by_cases h9 : rows * cols < 9
  · unfold caAdjacency2d
    rw [if_pos h9]
    simp [h9, Nat.not_le.2 h9, eq_comm]
  · have h9' : 9 ≤ rows * cols := by omega
    by_cases hb : boundary = "periodic"
    · by_cases hn : nb ∈ ["Moore", "von Neumann", "Hex"]
      · constructor
        · intro he
          rcases raises.1 ⟨e, he⟩ with h | h | h
          · exact absurd h h9
          · exact absurd hb h
          · exact absurd hn h
        · rintro (⟨h, _⟩ | ⟨_, h, _⟩ | ⟨_, _, h, _⟩)
          · exact absurd h h9
          · exact absurd hb h
          · exact absurd hn h
      · have hn' := hn
        simp only [List.mem_cons, List.not_mem_nil, or_false, not_or] at hn'
        have : caAdjacency2d rows cols r nb boundary = .error (.exception "neighbourhood type not supported") := by
          unfold caAdjacency2d criterion
          rw [if_neg h9, if_pos hb, if_neg hn'.2.1, if_neg hn'.1, if_neg hn'.2.2]
        rw [this]
        constructor
        · intro he; cases he; exact Or.inr (Or.inr ⟨h9', hb, hn, rfl⟩)
        · rintro (⟨h, _⟩ | ⟨_, h, _⟩ | ⟨_, _, _, h⟩)
          · exact absurd h h9
          · exact absurd hb h
          · rw [h]
    · have : caAdjacency2d rows cols r nb boundary = .error (.exception "unsupported boundary condition") := by
        unfold caAdjacency2d
        rw [if_neg h9, if_neg hb]
      rw [this]
      constructor
      · intro he; cases he; exact Or.inr (Or.inl ⟨h9', hb, rfl⟩)
      · rintro (⟨h, _⟩ | ⟨_, _, h⟩ | ⟨_, h, _⟩)
        · exact absurd h h9
        · rw [h]
        · exact absurd h hb

/-- C166: rule tables and totalistic rules. -/
theorem C166_rules {L A I : Type} (t : Table) (ctx : NodeCtx L A Int I) (hc : Colours 10 ctx.neighbourActs) (k : Nat) (hk : 2 ≤ k) (hk' : k ≤ 36)
    (R : Nat) (hck : Colours k ctx.neighbourActs) (e : Err) :
    (tableRule t ctx = .error e ↔ ctx.neighbourActs.map (fun v => digitChar v.toNat) ∉ t.keys ∧ e = .exception "could not find state in table") ∧
    (totalisticCa k R ctx = .error e ↔ k ^ (ctx.neighbourActs.length * (k - 1) + 1) ≤ R ∧ e = .exception "rule number out of range") := by
  constructor
  · have e1 : tableRule t ctx = if !(t.has (ctx.neighbourActs.map (fun v => digitChar v.toNat)))
        then .error (.exception "could not find state in table")
        else t.get (ctx.neighbourActs.map (fun v => digitChar v.toNat)) := by
      unfold tableRule
      simp only [flatten_strInt hc]
    rw [e1, ← Dict.get?_eq_none_iff]
    cases hg : t.get? (ctx.neighbourActs.map (fun v => digitChar v.toNat)) with
    | none => simp [Dict.has, hg, eq_comm]
    | some w => simp [Dict.has, Dict.get, hg]
  · constructor
    · intro he
      have hR := (C30_raises_iff hk hk' R ctx hck).1 ⟨e, he⟩
      rw [totalisticCa_error hk hk' R ctx hR] at he
      cases he
      exact ⟨hR, rfl⟩
    · rintro ⟨hR, rfl⟩
      exact totalisticCa_error hk hk' R ctx hR

/-- C166: `ncr` looks at `n` first. -/
theorem C166_ncr (n r : Int) (e : Err) : ncr n r = .error e ↔
    (n < 0 ∧ e = .exception "n must be a non-negative int") ∨ (0 ≤ n ∧ r < 0 ∧ e = .exception "r must be a non-negative int") := by
  unfold ncr
  by_cases hn : n < 0
  · simp [hn, Int.not_le.2 hn, eq_comm]
  · rw [if_neg hn]
    by_cases hr : r < 0
    · rw [if_pos hr]
      simp [hn, hr, Int.not_lt.1 hn, eq_comm]
    · rw [if_neg hr]
      by_cases hnr : n < r
      · simp [hn, hr, hnr]
      · simp [hn, hr, hnr]

section
variable {V : Type}

/-- C166: initial conditions of negative size are rejected by NumPy, those of size 0 have no centre. -/
theorem C166_init_simple (zero val : V) (size rows cols : Int) (e : Err) :
    (initSimple zero size val = .error e ↔ (size < 0 ∧ e = .valueError) ∨ (size = 0 ∧ e = .indexError)) ∧
    (initSimple2d zero rows cols val = .error e ↔
      ((rows < 0 ∨ cols < 0) ∧ e = .valueError) ∨ (0 ≤ rows ∧ 0 ≤ cols ∧ (rows = 0 ∨ cols = 0) ∧ e = .indexError)) := by
  constructor
  · by_cases hs : size ≤ 0
    · by_cases h0 : size < 0
      · unfold initSimple
        rw [if_pos h0]
        constructor
        · intro h; cases h; exact Or.inl ⟨h0, rfl⟩
        · rintro (⟨_, rfl⟩ | ⟨h, _⟩)
          · rfl
          · omega
      · have : size = 0 := by omega
        subst this
        have : initSimple zero 0 val = .error .indexError := by simp [initSimple, pySet, pyIndex]
        rw [this]
        constructor
        · intro h; cases h; exact Or.inr ⟨rfl, rfl⟩
        · rintro (⟨h, _⟩ | ⟨_, rfl⟩)
          · omega
          · rfl
    · constructor
      · intro h
        exact absurd (((C71_init_simple zero val).2 size).1 ⟨e, h⟩) hs
      · rintro (⟨h, _⟩ | ⟨h, _⟩) <;> omega
  · by_cases hn : rows < 0 ∨ cols < 0
    · unfold initSimple2d
      rw [if_pos hn]
      constructor
      · intro h; cases h; exact Or.inl ⟨hn, rfl⟩
      · rintro (⟨_, rfl⟩ | ⟨_, _, _, _⟩)
        · rfl
        · omega
    · by_cases hz : rows = 0 ∨ cols = 0
      · have : initSimple2d zero rows cols val = .error .indexError := by
          unfold initSimple2d
          rw [if_neg hn]
          by_cases hr : rows = 0
          · subst hr
            simp [pyGet, pyIndex]
          · have hc : cols = 0 := by omega
            subst hc
            simp only
            have hlt : (rows / 2).toNat < (List.replicate rows.toNat (List.replicate (0 : Int).toNat zero)).length := by
              rw [List.length_replicate]; omega
            have := pyGet_natCast _ hlt
            rw [show (((rows / 2).toNat : Nat) : Int) = rows / 2 by omega] at this
            rw [this, List.getElem_replicate]
            simp [pySet, pyIndex]
        rw [this]
        constructor
        · intro h; cases h; exact Or.inr ⟨by omega, by omega, hz, rfl⟩
        · rintro (⟨h, _⟩ | ⟨_, _, _, rfl⟩)
          · exact absurd h hn
          · rfl
      · constructor
        · intro h
          have := ((C71_init_simple2d zero val).2 rows cols).1 ⟨e, h⟩
          omega
        · rintro (⟨h, _⟩ | ⟨_, _, h, _⟩)
          · exact absurd h hn
          · exact absurd h hz

/-- C166: `init_random` looks at the number of randomized sites first.  Left out: no randomized sites and `k ≤ 0`, where it depends on NumPy
whether it raises. -/
theorem C166_init_random (size k : Int) (nr : Option Int) (empty : V) (integer : Bool) (draw : Nat → V) (e : Err)
    (_hnp : integer = true → k ≤ 0 → nr.getD size ≠ 0) :
    initRandom size k nr empty integer draw = .error e ↔
      ((nr.getD size < 0 ∨ size < nr.getD size) ∧ e = .exception "the number of randomized sites, if specified, must be >= 0 and <= size") ∨
      (0 ≤ nr.getD size ∧ nr.getD size ≤ size ∧ integer = true ∧ k ≤ 0 ∧ e = .valueError) := by
  unfold initRandom
  simp only
  by_cases h : nr.getD size > size ∨ nr.getD size < 0
  · rw [if_pos h]
    constructor
    · intro he; cases he; exact Or.inl ⟨by omega, rfl⟩
    · rintro (⟨_, rfl⟩ | ⟨_, _, _⟩)
      · rfl
      · omega
  · rw [if_neg h]
    by_cases hk : integer = true ∧ k ≤ 0
    · rw [if_pos hk]
      constructor
      · intro he; cases he; exact Or.inr ⟨by omega, by omega, hk.1, hk.2, rfl⟩
      · rintro (⟨_, _⟩ | ⟨_, _, _, _, rfl⟩)
        · omega
        · rfl
    · rw [if_neg hk]
      constructor
      · intro he; cases he
      · rintro (⟨_, _⟩ | ⟨_, _, h1, h2, _⟩)
        · omega
        · exact absurd ⟨h1, h2⟩ hk

/-- C166: hexagons: a state with another number of cells is rejected by NumPy, whatever the slice. -/
theorem C166_hex (activities : List (List V)) (rows cols : Nat) (k : Int) (e : Err) :
    hexPatches activities (some (rows, cols)) k = .error e ↔
      ((∃ row ∈ activities, row.length ≠ rows * cols) ∧ e = .valueError) ∨
      ((∀ row ∈ activities, row.length = rows * cols) ∧ (k < -(activities.length : Int) ∨ (activities.length : Int) ≤ k) ∧ e = .indexError) := by
  unfold hexPatches hexGrid
  by_cases hall : activities.all (fun row => decide (row.length = rows * cols)) = true
  · have hall' : ∀ row ∈ activities, row.length = rows * cols := fun row hr => of_decide_eq_true (List.all_eq_true.1 hall row hr)
    have hno : ¬ ∃ row ∈ activities, row.length ≠ rows * cols := fun ⟨row, hr, hne⟩ => hne (hall' row hr)
    simp only [hall, if_true]
    unfold pyGet
    cases hp : pyIndex activities.length k with
    | none =>
      rw [pyIndex_eq_none_iff] at hp
      simp only
      constructor
      · intro h; cases h; exact Or.inr ⟨hall', hp, rfl⟩
      · rintro (⟨h, _⟩ | ⟨_, _, rfl⟩)
        · exact absurd h hno
        · rfl
    | some p =>
      have hlt := pyIndex_lt hp
      have hne : ¬ (k < -(activities.length : Int) ∨ (activities.length : Int) ≤ k) := by
        rw [← pyIndex_eq_none_iff, hp]; simp
      simp only [List.getElem?_eq_getElem hlt]
      constructor
      · intro h; cases h
      · rintro (⟨h, _⟩ | ⟨_, h, _⟩)
        · exact absurd h hno
        · exact absurd h hne
  · have hyes : ∃ row ∈ activities, row.length ≠ rows * cols := by
      rw [List.all_eq_true] at hall
      refine Classical.byContradiction fun hno => hall fun row hr => decide_eq_true ?_
      exact Classical.byContradiction fun hne => hno ⟨row, hr, hne⟩
    simp only [hall]
    constructor
    · intro h; cases h; exact Or.inl ⟨hyes, rfl⟩
    · rintro (⟨_, rfl⟩ | ⟨h, _⟩)
      · rfl
      · obtain ⟨row, hr, hne⟩ := hyes
        exact absurd (h row hr) hne

/-- C166: `plot_activities` with a shape of one number: a wrong number fails the assertion of `_reshape_for_animation`, the right one raises
an `IndexError` afterwards. -/
theorem C166_one_number {L X : Type} [DecidableEq L] (zero : V) (le : L → L → Bool) (p : Plottable L V) (row : List V) (rows : List (List V))
    (hl : p.toRows le = .ok (row :: rows)) (w : Nat) (slice : Int) (ann : Option (List (List X))) (grid : Bool) :
    plotActivities zero le p (some [w]) slice ann grid = .error (if w = row.length then .indexError else .assertion) := by
  unfold plotActivities
  rw [hl]
  simp only [reshapeForAnimation]
  by_cases h : w = row.length
  · rw [if_pos h, if_pos h]; rfl
  · rw [if_neg h, if_neg h]

/-- C166: fewer titles than automata raise an `IndexError`, if the automata can be drawn. -/
theorem C166_few_titles {X : Type} (cas : List (List (List V))) (shape : Option (List Nat)) (slice : Int) (titles : List X)
    (himg : ∀ c ∈ cas, ∃ image, figureImage c shape slice = .ok image) (h : titles.length < cas.length) :
    plotGridMultiple cas shape slice (some titles) = .error .indexError := by
  unfold plotGridMultiple
  have key : ∀ (cas : List (List (List V))) (k : Nat), (∀ c ∈ cas, ∃ image, figureImage c shape slice = .ok image) →
      titles.length < k + cas.length → 0 < cas.length → (cas.zipIdx k).mapM (figureOf shape slice (some titles)) = .error .indexError := by
    intro cas
    induction cas with
    | nil => intro k _ _ h; simp at h
    | cons c cas ih =>
      intro k himg hk _
      rw [List.zipIdx_cons, List.mapM_cons]
      obtain ⟨image, hi⟩ := himg c (by simp)
      by_cases hlt : k < titles.length
      · have hf : figureOf shape slice (some titles) (c, k) = .ok (some titles[k], image) := by
          simp only [figureOf]
          rw [pyGet_natCast titles hlt, hi]
        have hrest := ih (k + 1) (fun x hx => himg x (by simp [hx])) (by simp at hk; omega) (by simp at hk; omega)
        rw [hf, hrest]
        rfl
      · have hf : figureOf shape slice (some titles) (c, k) = .error .indexError := by
          have : pyGet titles (k : Int) = .error .indexError := by
            unfold pyGet
            rw [pyIndex_eq_none_iff.2 (by right; omega)]
          simp only [figureOf]
          rw [this]
        rw [hf]
        rfl
  exact key cas 0 himg (by simpa using h) (by omega)

end

/-- C166: layouts of `plot_network`. -/
theorem C166_layout {L A P : Type} [DecidableEq L] (n : Net L A) (layout : Layout L P) (e : Err) : plotNetwork n layout = .error e ↔
    ∃ s, layout = .name s ∧ s ≠ "shell" ∧ s ≠ "spring" ∧ e = .exception ("unsupported layout: " ++ s) := by
  unfold plotNetwork plotLayout
  cases layout with
  | positions d =>
    constructor
    · intro h; cases h
    · rintro ⟨s, h, _⟩; cases h
  | name s =>
    by_cases h1 : s = "shell"
    · simp [h1]
    · by_cases h2 : s = "spring"
      · simp [h2]
      · simp [h1, h2, eq_comm]

/-- C166: a head-centric Turing machine without an end. -/
theorem C166_endless {Q S : Type} (tape : List S) (q : Q) (p : Int) (term : Option Q) (maxT : Option Int) (e : Err) :
    headInit tape q p term maxT = .error e ↔
      term = none ∧ maxT = none ∧ e = .exception "a terminating state or the max number of timesteps must be specified" := by
  unfold headInit
  cases term <;> cases maxT <;> simp [eq_comm]

/-- C166: `to_configurations`: the first state without network decides, if the networks before it are configurations. -/
theorem C166_no_network {V I κ : Type} (cfg : Config Int WVal V I Int κ) (res : Evolved Int WVal V Int) (t : Nat) (ht : t < res.states.length)
    (hn : res.net cfg t = none) (hb : ∀ s, s < t → ∃ n c, res.net cfg s = some n ∧ wConfig n = .ok c) :
    toConfigurations cfg res = .error (.exception "AttributeError") := by
  unfold toConfigurations
  have e : List.range res.states.length = List.range t ++ t :: (List.range (res.states.length - t - 1)).map (fun i => t + 1 + i) := by
    have h : res.states.length = t + ((res.states.length - t - 1) + 1) := by omega
    conv => lhs; rw [h, List.range_add, List.range_succ_eq_map, List.map_cons, List.map_map]
    congr 1
    congr 1
    refine List.map_congr_left fun i _ => ?_
    show t + Nat.succ i = _
    omega
  have hpre : ∀ l : List Nat, (∀ s ∈ l, s < t) → ∃ cs, l.mapM (fun t => stateConfig (res.net cfg t)) = .ok cs := by
    intro l
    induction l with
    | nil => intro _; exact ⟨[], rfl⟩
    | cons a l ih =>
      intro h
      obtain ⟨cs, hcs⟩ := ih (fun s hs => h s (by simp [hs]))
      obtain ⟨n, c, h1, h2⟩ := hb a (h a (by simp))
      have e : stateConfig (some n) = .ok c := h2
      rw [List.mapM_cons, hcs, h1, e]
      exact ⟨_, rfl⟩
  obtain ⟨cs, hcs⟩ := hpre (List.range t) (fun s hs => List.mem_range.1 hs)
  rw [e, List.mapM_append, hcs, List.mapM_cons, hn]
  rfl

/-! Examples -/

example : caAdjacency 2 1 "open" = .error (.exception "There must be at least 3 cells") := (C166_ring 2 1 "open" _).2 (Or.inl ⟨by decide, rfl⟩)
example : caAdjacency 5 1 "open" = .error (.exception "unsupported boundary condition") :=
  (C166_ring 5 1 "open" _).2 (Or.inr (Or.inl ⟨by decide, by decide, rfl⟩))
example : caAdjacency 5 6 "periodic" = .error .indexError := (C166_ring 5 6 "periodic" _).2 (Or.inr (Or.inr ⟨by decide, rfl, by decide, rfl⟩))
example : caAdjacency2d 3 4 1 "Triangle" "periodic" = .error (.exception "neighbourhood type not supported") :=
  (C166_torus 3 4 1 "Triangle" "periodic" _).2 (Or.inr (Or.inr ⟨by decide, rfl, by decide, rfl⟩))
example : tableRule [(['0', '1'], 1)] (Ex.ctxOf 0 [1, 1]) = .error (.exception "could not find state in table") :=
  (C166_rules [(['0', '1'], 1)] (Ex.ctxOf 0 [1, 1]) (by intro v hv; revert v; decide) 2 (by decide) (by decide) 0
    (by intro v hv; revert v; decide) _).1.2 ⟨by decide, rfl⟩
example : ncr (-1) (-1) = .error (.exception "n must be a non-negative int") := (C166_ncr (-1) (-1) _).2 (Or.inl ⟨by decide, rfl⟩)
example : initSimple2d (0 : Int) 3 0 1 = .error .indexError :=
  (C166_init_simple (0 : Int) 1 0 3 0 _).2.2 (Or.inr ⟨by decide, by decide, Or.inr rfl, rfl⟩)
example : initRandom 5 0 (some 3) (0 : Int) true (fun _ => 1) = .error .valueError :=
  (C166_init_random 5 0 (some 3) (0 : Int) true (fun _ => 1) _ (by decide)).2 (Or.inr ⟨by decide, by decide, rfl, by decide, rfl⟩)
example : hexPatches [[1, 2, 3], [(4 : Int), 5, 6]] (some (2, 2)) 7 = .error .valueError :=
  (C166_hex _ 2 2 7 _).2 (Or.inl ⟨⟨[1, 2, 3], by decide, by decide⟩, rfl⟩)
example : plotActivities (X := Int) (0 : Int) Nat.ble (.rows [[1, 2], [3, 4]]) (some [2]) 0 none false = .error .indexError :=
  C166_one_number (0 : Int) Nat.ble (.rows [[1, 2], [3, 4]]) [1, 2] [[3, 4]] rfl 2 0 none false
example : plotGridMultiple [[[(1 : Int)]], [[2]]] none 0 (some [5]) = .error .indexError :=
  C166_few_titles [[[(1 : Int)]], [[2]]] none 0 [5] (fun c _ => ⟨c, rfl⟩) (by decide)
example : plotNetwork (P := Int) (Net.empty : Net Nat Int) (.name "circle") = .error (.exception "unsupported layout: circle") :=
  (C166_layout _ _ _).2 ⟨"circle", rfl, by decide, by decide, by decide⟩
example : headInit [(0 : Int)] (1 : Int) 0 none none = .error (.exception "a terminating state or the max number of timesteps must be specified") :=
  (C166_endless _ _ _ _ _ _).2 ⟨rfl, rfl, rfl⟩

/-- States that were not persisted. -/
example : toConfigurations (ExWolfram.cfg 2) ⟨[St.new false, St.new false], ⟨[], 0⟩⟩ = .error (.exception "AttributeError") :=
  C166_no_network (ExWolfram.cfg 2) ⟨[St.new false, St.new false], ⟨[], 0⟩⟩ 0 (by decide) rfl (fun s hs => absurd hs (by omega))

end Verif
