import Verif.Props.Ctrbl
import Verif.Props.RuleTables
import Verif.Props.Rules
import Verif.Props.Turtle
import Verif.Props.Turing
import Verif.Props.Utils
import Verif.Props.PlotGrid
/-! # The exceptions of C30, C34, C41, C45, C49, C50, C52, C65, C69, C70, C71, C75, C126, C127

The theorems on these properties say when a call raises; here is what it raises.  Messages with a formatted value are modelled by
their fixed part. -/

namespace Verif
section
variable {L A I V R : Type}

/-- C30: a rule number that is too large is the only reason, and this is the message. -/
theorem C30_message {k : Nat} (hk : 2 ≤ k) (hk' : k ≤ 36) (n : Nat) (ctx : NodeCtx L A Int I) (hc : Colours k ctx.neighbourActs)
    (hn : k ^ (ctx.neighbourActs.length * (k - 1) + 1) ≤ n) :
    totalisticCa k n ctx = .error (.exception "rule number out of range") := by
  exact totalisticCa_error hk hk' n ctx hn

/-- C34: a neighbourhood without an entry. -/
theorem C34_message (t : Table) (ctx : NodeCtx L A Int I) (hc : Colours 10 ctx.neighbourActs)
    (h : ctx.neighbourActs.map (fun v => digitChar v.toNat) ∉ t.keys) :
    tableRule t ctx = .error (.exception "could not find state in table") := by
  obtain ⟨e, he⟩ := (C34_table_partial t ctx hc).2.1.2 h
  unfold tableRule at he ⊢
  simp only at he ⊢
  split
  · rfl
  · rename_i hh
    rw [if_neg hh] at he
    simp [Dict.has] at hh
    obtain ⟨v, hv⟩ := Option.ne_none_iff_exists'.1 hh
    rw [Dict.get_eq_ok_iff.2 hv] at he
    cases he

/-- C41: the size is checked first, then the boundary, then the neighbourhood. -/
theorem C41_messages (rows cols r : Nat) (nb boundary : String) :
    (rows * cols < 9 → caAdjacency2d rows cols r nb boundary = .error (.exception "There must be at least 9 cells")) ∧
    (9 ≤ rows * cols → boundary ≠ "periodic" →
      caAdjacency2d rows cols r nb boundary = .error (.exception "unsupported boundary condition")) ∧
    (9 ≤ rows * cols → boundary = "periodic" → nb ∉ ["Moore", "von Neumann", "Hex"] →
      caAdjacency2d rows cols r nb boundary = .error (.exception "neighbourhood type not supported")) := by
  refine ⟨fun h => ?_, fun h hb => ?_, fun h hb hn => ?_⟩
  · unfold caAdjacency2d
    rw [if_pos h]
  · unfold caAdjacency2d
    rw [if_neg (by omega), if_neg hb]
  · simp at hn
    unfold caAdjacency2d criterion
    rw [if_neg (by omega), if_pos hb, if_neg hn.2.1, if_neg hn.1, if_neg hn.2.2]

/-- C45: networkx has no adjacency matrix for a graph without nodes. -/
theorem C45_complete_zero_message : completeNetwork 0 = .error (.exception "Graph has no nodes or edges") := rfl

/-- C49: too few cells. -/
theorem C49_message (rows cols : Nat) (h9 : rows * cols < 9) :
    ctrblNetwork rows cols = .error (.exception "There must be at least 9 cells") := by
  unfold ctrblNetwork cellularAutomaton2d
  rw [(C41_messages rows cols 1 "von Neumann" "periodic").1 h9]

/-- C50: a neighbourhood that is in no rule; the message needs five activities. -/
theorem C50_message [DecidableEq V] (rules : List (List V × V)) (h5 : ∀ p ∈ rules, p.1.length = 5) (table : Dict (List V) V)
    (ht : initRuleTable true rules [] = .ok table) (c : NodeCtx Nat A V I) (h : ¬ ∃ p ∈ rules, c.neighbourActs ∈ turns p.1) :
    ctrblRule table c = .error (if c.neighbourActs.length = 5 then .exception "neighbourhood state not in rule table" else .typeError) := by
  obtain ⟨e, he⟩ := (C50_rule rules h5 table ht c c).1.2 h
  unfold ctrblRule at he ⊢
  cases hg : table.get? c.neighbourActs with
  | some v => simp [hg] at he
  | none =>
    simp only
    split <;> rfl

/-- C52: no way to stop. -/
theorem C52_needs_stop_message {Q S : Type} (tape : List S) (q : Q) (p : Int) :
    headInit tape q p none none = .error (.exception "a terminating state or the max number of timesteps must be specified") := rfl

/-- C65: a program raises only `IndexError`, the one of `list.pop`. -/
theorem C65_error [Add R] [Mul R] (g : Trig R) (w : List (TurtleOp R)) (t : Turtle R) (e : Err) (h : runTurtle g w t = .error e) :
    e = .indexError := by
  induction w generalizing t with
  | nil => cases h
  | cons op w ih =>
    simp only [runTurtle, List.foldlM, bind, Except.bind] at h
    split at h
    · rename_i e' he
      cases h
      cases op <;> simp [TurtleOp.call, Turtle.pop] at he
      split at he <;> simp_all
    · exact ih _ h

/-- C69: which argument is to blame. -/
theorem C69_messages (n r : Int) :
    (n < 0 → ncr n r = .error (.exception "n must be a non-negative int")) ∧
    (0 ≤ n → r < 0 → ncr n r = .error (.exception "r must be a non-negative int")) := by
  unfold ncr
  constructor
  · intro h
    rw [if_pos h]
  · intro h1 h2
    rw [if_neg (by omega), if_pos h2]

/-- C70: no rows, and otherwise the first row that is empty or starts with a negative number decides. -/
theorem C70_errors (acts : List (List Int)) :
    binarizeForPlotting [] = .error .valueError ∧
    (∀ pre a post, acts = pre ++ a :: post → (∀ b ∈ pre, ∃ x r, b = x :: r ∧ 0 ≤ x) →
      (a = [] → binarizeForPlotting acts = .error .indexError) ∧
      (∀ x r, a = x :: r → x < 0 → binarizeForPlotting acts = .error .valueError)) := by
  refine ⟨rfl, ?_⟩
  rintro pre a post rfl hpre
  have key : ∀ e, binDigits a = .error e → binarizeForPlotting (pre ++ a :: post) = .error e := by
    intro e he
    have : (pre ++ a :: post).mapM binDigits = .error e := by
      induction pre with
      | nil => simp [List.mapM_cons, bind, Except.bind, he]
      | cons b pre ih =>
        obtain ⟨x, r, rfl, hx⟩ := hpre b (by simp)
        have hb : binDigits (x :: r) = .ok ((digitsBE 2 x.toNat).map (fun (d : Nat) => (d : Int))) := by
          simp only [binDigits]
          rw [if_neg (by omega)]
        rw [List.cons_append, List.mapM_cons, hb]
        simp only [bind, Except.bind]
        rw [ih (fun c hc => hpre c (by simp [hc]))]
    unfold binarizeForPlotting
    rw [this]
  constructor
  · rintro rfl
    exact key _ rfl
  · rintro x r rfl hx
    exact key _ (by simp [binDigits, hx])

/-- C71: a negative size is rejected by numpy, and size zero has no centre. -/
theorem C71_simple_errors (zero val : V) :
    (∀ size : Int, size < 0 → initSimple zero size val = .error .valueError) ∧
    initSimple zero 0 val = .error .indexError ∧
    (∀ rows cols : Int, rows < 0 ∨ cols < 0 → initSimple2d zero rows cols val = .error .valueError) ∧
    (∀ rows cols : Int, 0 ≤ rows → 0 ≤ cols → rows = 0 ∨ cols = 0 → initSimple2d zero rows cols val = .error .indexError) := by
  refine ⟨fun size h => by simp [initSimple, h], rfl, fun rows cols h => by simp only [initSimple2d]; rw [if_pos h], ?_⟩
  intro rows cols h1 h2 h
  obtain ⟨rows, rfl⟩ := Int.eq_ofNat_of_zero_le h1
  obtain ⟨cols, rfl⟩ := Int.eq_ofNat_of_zero_le h2
  obtain ⟨e, he⟩ := ((C71_init_simple2d zero val).2 rows cols).2 (by omega)
  rw [he]
  have hg : ∀ (l : List (List V)) (k : Int) e, pyGet l k = .error e → e = .indexError := by
    intro l k e h
    unfold pyGet at h
    repeat' split at h
    all_goals simp_all
  have hset : ∀ (W : Type) (l : List W) (k : Int) (v : W) e, pySet l k v = .error e → e = .indexError := by
    intro W l k v e h
    unfold pySet at h
    repeat' split at h
    all_goals simp_all
  unfold initSimple2d at he
  rw [if_neg (by omega)] at he
  simp only at he
  split at he
  · rename_i h1
    cases he
    rw [hg _ _ _ h1]
  · split at he
    · rename_i h1
      cases he
      rw [hset _ _ _ _ _ h1]
    · split at he
      · rename_i h1
        cases he
        rw [hset _ _ _ _ _ h1]
      · cases he

/-- C71: the number of randomised sites. -/
theorem C71_random_errors (size k : Int) (nr : Option Int) (empty : V) (integer : Bool) (draw : Nat → V) :
    ((nr.getD size < 0 ∨ size < nr.getD size) → initRandom size k nr empty integer draw =
      .error (.exception "the number of randomized sites, if specified, must be >= 0 and <= size")) ∧
    (0 < nr.getD size → nr.getD size ≤ size → k ≤ 0 → initRandom size k nr empty true draw = .error .valueError) := by
  unfold initRandom
  simp only
  constructor
  · intro h
    rw [if_pos (by omega)]
  · intro h1 h2 h3
    rw [if_neg (by omega), if_pos (by simp [h3])]

/-- C75: a symbol without binding, after symbols that could be drawn. -/
theorem C75_unbound_error {S σ : Type} [DecidableEq S] (b : Dict S (Binding σ)) (w w' : List S) (s : S) (hb : b.get? s = none) (u u' : σ)
    (hw : renderString b w u = .ok u') : renderString b (w ++ s :: w') u = .error .keyError := by
  unfold renderString at hw ⊢
  rw [List.foldlM_append, hw]
  simp [List.foldlM, bind, Except.bind, hb]

/-- C126: a row of another length, a `slice` that is out of range, and a grid without rows, in this order. -/
theorem C126_errors {L X : Type} [DecidableEq L] (zero : V) (le : L → L → Bool) (p : Plottable L V) (rows cols : Nat) (slice : Int)
    (ann : Option (List (List X))) (grid : Bool) (l : List (List V)) (hl : p.toRows le = .ok l) :
    ((∃ row ∈ l, row.length ≠ rows * cols) → plotActivities zero le p (some [rows, cols]) slice ann grid = .error .valueError) ∧
    ((∀ row ∈ l, row.length = rows * cols) → slice < -(l.length : Int) ∨ (l.length : Int) ≤ slice →
      plotActivities zero le p (some [rows, cols]) slice ann grid = .error .indexError) ∧
    ((∀ row ∈ l, row.length = rows * cols) → -(l.length : Int) ≤ slice → slice < (l.length : Int) → grid = true → rows = 0 →
      plotActivities zero le p (some [rows, cols]) slice ann grid = .error .indexError) := by
  unfold plotActivities
  rw [hl]
  simp only [reshapeForAnimation]
  refine ⟨?_, ?_, ?_⟩
  · rintro ⟨row, hrow, hne⟩
    rw [if_neg (by rw [List.all_eq_true]; exact fun h => hne (of_decide_eq_true (h row hrow)))]
  · intro hall hs
    rw [if_pos (by simpa [List.all_eq_true] using hall)]
    simp only [frameOf, pyGet]
    rw [pyIndex_eq_none_iff.2 (by simpa using hs)]
  · intro hall h1 h2 hg h0
    subst h0 hg
    rw [if_pos (by simpa [List.all_eq_true] using hall)]
    simp only [frameOf, pyGet]
    cases hi : pyIndex (l.map (animationGrid 0 cols)).length slice with
    | none => rfl
    | some i =>
      simp only
      cases he : (l.map (animationGrid 0 cols))[i]? with
      | none => rfl
      | some im =>
        simp only
        rw [List.getElem?_map] at he
        cases hr : l[i]? with
        | none => simp [hr] at he
        | some row =>
          simp [hr, animationGrid] at he
          subst he
          rfl

/-- C127: a layout with another name. -/
theorem C127_message {L P : Type} [DecidableEq L] (n : Net L A) (s : String) (h1 : s ≠ "shell") (h2 : s ≠ "spring") :
    plotNetwork n (.name s : Layout L P) = .error (.exception ("unsupported layout: " ++ s)) := by
  unfold plotNetwork plotLayout
  simp [h1, h2]

end

/-! ### Examples -/

example : totalisticCa 2 32 (Ex.ctxOf 0 [1, 0, 1]) =
    .error (.exception "rule number out of range") := by decide

example : binarizeForPlotting [[3, 1], [-1], []] = .error .valueError :=
  ((C70_errors [[3, 1], [-1], []]).2 [[3, 1]] [-1] [[]] rfl (by simp)).2 (-1) [] rfl (by decide)

end Verif
