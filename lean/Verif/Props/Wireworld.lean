import Verif.Proofs.Wireworld
import Verif.Model.WireDemos
import Verif.Props.Examples
/-! # C119: Wireworld circuits -/

namespace Verif
open Spec

theorem wireNext_perm (v : Int) {l l' : List Int} (h : l.Perm l') : wireNext v l = wireNext v l' := by
  unfold wireNext
  rw [h.count_eq]

theorem wireNext_range {v : Int} (l : List Int) (h : 0 ≤ v ∧ v ≤ 3) : 0 ≤ wireNext v l ∧ wireNext v l ≤ 3 := by
  unfold wireNext
  split
  · decide
  · split
    · decide
    · split
      · decide
      · split <;> decide

/-- The circuit is drawn once and for all: a cell that is empty stays empty, and no other cell becomes empty. -/
theorem wire_stays {rows cols : Nat} {s : Nat → Nat → Int} (t a b : Nat) :
    wireCA rows cols s t a b = 0 ↔ s a b = 0 := by
  induction t with
  | zero => exact Iff.rfl
  | succ t ih =>
    rw [← ih, wireCA_succ]
    unfold wireNext
    constructor
    · intro h
      split at h
      · assumption
      · split at h
        · omega
        · split at h
          · omega
          · split at h <;> omega
    · intro h
      rw [if_pos h]

theorem no_heads {rows cols : Nat} (hr : 0 < rows) (hc : 0 < cols) {s : Nat → Nat → Int}
    (hs : ∀ a b, a < rows → b < cols → s a b ≠ 1) (a b : Nat) (ha : a < rows) (hb : b < cols) :
    wireNext (s a b) (torusNbrs rows cols moore8 s a b) ≠ 1 := by
  have hz : (torusNbrs rows cols moore8 s a b).count 1 = 0 := by
    rw [torusNbrs_count, List.countP_eq_zero]
    intro d _
    obtain ⟨l1, l2⟩ := torusCell_lt hr hc (a, b) d
    simpa using hs _ _ l1 l2
  unfold wireNext
  rw [hz]
  split
  · decide
  · split
    · decide
    · split <;> decide

/-- C119.  The wiring never changes; once there is no head, there never is one again. -/
theorem C119_wiring (rows cols : Nat) (hr : 0 < rows) (hc : 0 < cols) (s : Nat → Nat → Int) :
    (∀ t a b, torusCA rows cols moore8 wireNext s t a b = 0 ↔ s a b = 0) ∧
    ∀ t, (∀ a b, a < rows → b < cols → torusCA rows cols moore8 wireNext s t a b ≠ 1) →
      ∀ t', t ≤ t' → ∀ a b, a < rows → b < cols → torusCA rows cols moore8 wireNext s t' a b ≠ 1 := by
  refine ⟨wire_stays, fun t h t' htt => ?_⟩
  induction htt with
  | refl => exact h
  | step _ ih => exact no_heads hr hc ih

section
variable {I σ κ : Type} [DecidableEq κ]

theorem wireworld_at (c : NodeCtx Nat Int Int I) (g : Nat → Int) (ys : List Nat) (hgood : 0 ≤ c.current ∧ c.current ≤ 3)
    (hp : c.neighbours.Perm (c.node :: ys)) (ha : c.neighbourActs = c.neighbours.map g) (hc : c.current = g c.node) :
    orNone wireworld? c = .ok (wireNext c.current (ys.map g)) := by
  have hcnt : c.current = 3 → c.neighbourActs.count 1 = (ys.map g).count 1 := by
    intro h3
    rw [ha, (hp.map g).count_eq, List.map_cons, List.count_cons, ← hc, h3]
    rfl
  have : c.current = 0 ∨ c.current = 1 ∨ c.current = 2 ∨ c.current = 3 := by omega
  unfold orNone wireworld? wireNext
  rcases this with h | h | h | h
  · simp [h]
  · simp [h]
  · simp [h]
  · rw [hcnt h, h]
    by_cases hx : (ys.map g).count 1 = 1 ∨ (ys.map g).count 1 = 2
    · simp [hx]
    · simp [hx]

/-- C119.  Every ordinary call of `evolve` with `wireworld_rule` on `cellular_automaton2d(rows, cols)` from a picture with the
four states returns, and its states are the automaton in which empty cells stay empty, heads become tails, tails become
wire, and a wire with one or two heads among the eight cells around it on the torus becomes a head. -/
theorem C119_evolve (rows cols : Nat) (hrw : 3 ≤ rows) (hcl : 3 ≤ cols)
    (cfg : Config Nat Int Int I σ κ) (T : Nat) (hT : 1 ≤ T) (h : cfg.Ordinary (orNone wireworld?) T) (N : Net Nat Int)
    (hN : cellularAutomaton2d rows cols 1 "Moore" true = .ok N) (r : Nat) (w : World Nat Int σ)
    (hr : w.heap[r]? = some N) (init : Option (Conds Nat Int)) (s : Nat → Nat → Int)
    (hs : ∀ a b, a < rows → b < cols → 0 ≤ s a b ∧ s a b ≤ 3) (hlen : (initDict cfg init).length = rows * cols)
    (h0 : ∀ a b, a < rows → b < cols → (initDict cfg init).get? (a * cols + b) = some (s a b)) (fuel : Nat) (hf : T ≤ fuel) :
    ∃ res, evolve fuel cfg init r w = .ok res ∧ ShowsRun cfg res T (rows * cols)
      (fun t x => torusCA rows cols moore8 wireNext s t (x / cols) (x % cols)) := by
  have h9 : 9 ≤ rows * cols := Nat.mul_le_mul hrw hcl
  obtain ⟨M, m1, m2⟩ := C41_moore rows cols 1 h9
  exact torus_run_good hrw hcl moore_directions m1 m2 (Good := fun v => 0 ≤ v ∧ v ≤ 3) (fun _ l hv => wireNext_range l hv)
    (fun v _ _ hl => wireNext_perm v hl) (fun c g ys hg hp _ ha hc => wireworld_at c g ys hg hp ha hc) cfg T hT h N hN r w hr init s hs hlen h0 fuel hf

/-- C119.  The same run as sets of cells: on a wire, with disjoint heads and tails on it, the cells of the wire that are
neither heads nor tails and have one or two heads around them become the heads, and the heads become the tails. -/
theorem C119_sets (rows cols : Nat) (hrw : 3 ≤ rows) (hcl : 3 ≤ cols) (wire : List (Nat × Nat)) (e : Electrons)
    (hh : ∀ p ∈ e.heads, p ∈ wire ∧ p ∉ e.tails) (ht : ∀ p ∈ e.tails, p ∈ wire)
    (cfg : Config Nat Int Int I σ κ) (T : Nat) (hT : 1 ≤ T) (h : cfg.Ordinary (orNone wireworld?) T) (N : Net Nat Int)
    (hN : cellularAutomaton2d rows cols 1 "Moore" true = .ok N) (r : Nat) (w : World Nat Int σ)
    (hr : w.heap[r]? = some N) (init : Option (Conds Nat Int)) (hlen : (initDict cfg init).length = rows * cols)
    (h0 : ∀ a b, a < rows → b < cols → (initDict cfg init).get? (a * cols + b) = some (wirePicture wire e a b)) (fuel : Nat) (hf : T ≤ fuel) :
    ∃ res, evolve fuel cfg init r w = .ok res ∧ ShowsRun cfg res T (rows * cols)
      (fun t x => wirePicture wire (e.run rows cols wire t) (x / cols) (x % cols)) := by
  obtain ⟨res, e1, e2, e3⟩ := C119_evolve rows cols hrw hcl cfg T hT h N hN r w hr init (wirePicture wire e) (by
    intro a b _ _
    unfold wirePicture
    split
    · decide
    · split
      · decide
      · split <;> decide) hlen h0 fuel hf
  refine ⟨res, e1, e2, fun t htT => ?_⟩
  obtain ⟨d, d1, d2, d3⟩ := e3 t htT
  refine ⟨d, d1, d2, fun x hx => ?_⟩
  obtain ⟨ha, hb, _⟩ := split_label hx
  rw [d3 x hx]
  exact congrArg some ((picture_run (by omega) (by omega) hh ht (s := wirePicture wire e) (fun _ _ _ _ => rfl) t).1 _ _ ha hb)

/-- The signals of a closed wire after `t` steps. -/
theorem trains_run {rows cols : Nat} (hr : 3 ≤ rows) (hc : 3 ≤ cols) {path : List (Nat × Nat)} (hp : ClosedWire rows cols path) {u : Nat → Int}
    (hu : Trains path.length u) {s : Nat → Nat → Int} (hs : ∀ a b, a < rows → b < cols → s a b = signalPicture path u a b) : ∀ t : Nat,
    ∃ v : Nat → Int, Trains path.length v ∧ (∀ i, i < path.length → v ((i + t) % path.length) = u i) ∧
      ∀ a b, a < rows → b < cols → wireCA rows cols s t a b = signalPicture path v a b
  | 0 => ⟨u, hu, fun i hi => by rw [Nat.add_zero, Nat.mod_eq_of_lt hi], hs⟩
  | t + 1 => by
    obtain ⟨v, v1, v2, v3⟩ := trains_run hr hc hp hu hs t
    refine ⟨_, trains_shift v1, fun i hi => ?_, fun a b ha hb => trains_step hr hc hp v1 v3 a b ha hb⟩
    rw [← v2 i hi]
    congr 1
    rw [show (i + (t + 1)) % path.length + path.length - 1 = (i + (t + 1)) % path.length + (path.length - 1) by omega, Nat.mod_add_mod,
      show i + (t + 1) + (path.length - 1) = i + t + path.length by omega, Nat.add_mod_right]

/-- C119, closed wires.  On any closed wire on any torus, with any trains of electrons, every signal moves one cell along the
wire in every step, for ever: at time `t` the cell `i + t` of the wire (around the wire) shows what the cell `i` showed
at the start.  All cells off the wire stay empty. -/
theorem C119_loop (rows cols : Nat) (hrw : 3 ≤ rows) (hcl : 3 ≤ cols) (path : List (Nat × Nat)) (hp : ClosedWire rows cols path)
    (u : Nat → Int) (hu : Trains path.length u)
    (cfg : Config Nat Int Int I σ κ) (T : Nat) (hT : 1 ≤ T) (h : cfg.Ordinary (orNone wireworld?) T) (N : Net Nat Int)
    (hN : cellularAutomaton2d rows cols 1 "Moore" true = .ok N) (r : Nat) (w : World Nat Int σ)
    (hr : w.heap[r]? = some N) (init : Option (Conds Nat Int)) (hlen : (initDict cfg init).length = rows * cols)
    (h0 : ∀ i, (hi : i < path.length) → (initDict cfg init).get? (path[i].1 * cols + path[i].2) = some (u i))
    (h0' : ∀ a b, a < rows → b < cols → (a, b) ∉ path → (initDict cfg init).get? (a * cols + b) = some 0) (fuel : Nat) (hf : T ≤ fuel) :
    ∃ res, evolve fuel cfg init r w = .ok res ∧ ∀ t, t < T → ∃ d, res.acts cfg t = some d ∧
      (∀ i (hi : (i + t) % path.length < path.length), i < path.length →
        d.get? (path[(i + t) % path.length].1 * cols + path[(i + t) % path.length].2) = some (u i)) ∧
      ∀ a b, a < rows → b < cols → (a, b) ∉ path → d.get? (a * cols + b) = some 0 := by
  have hq : ∀ a b, a < rows → b < cols → (initDict cfg init).get? (a * cols + b) = some (signalPicture path u a b) := by
    intro a b ha hb
    by_cases hm : (a, b) ∈ path
    · obtain ⟨i, hi, he⟩ := List.getElem_of_mem hm
      have := h0 i hi
      have hon := signal_on hp.nodup u hi
      rw [he] at this hon
      rw [this, hon]
    · rw [h0' a b ha hb hm, signal_off u hm]
  obtain ⟨res, e1, _, e3⟩ := C119_evolve rows cols hrw hcl cfg T hT h N hN r w hr init (signalPicture path u) (by
    intro a b _ _
    by_cases hm : (a, b) ∈ path
    · obtain ⟨i, hi, he⟩ := List.getElem_of_mem hm
      have hon := signal_on hp.nodup u hi
      rw [he] at hon
      rw [hon]
      rcases hu.states i hi with g | g | g <;> rw [g] <;> decide
    · rw [signal_off u hm]; decide) hlen hq fuel hf
  refine ⟨res, e1, fun t htT => ?_⟩
  obtain ⟨d, d1, _, d3⟩ := e3 t htT
  obtain ⟨v, _, v2, v3⟩ := trains_run hrw hcl hp hu (s := signalPicture path u) (fun _ _ _ _ => rfl) t
  have hcell : ∀ a b, a < rows → b < cols → d.get? (a * cols + b) = some (signalPicture path v a b) := by
    intro a b ha hb
    rw [d3 _ (label_lt ha hb)]
    have q1 : (a * cols + b) / cols = a := by
      rw [Nat.mul_comm, Nat.mul_add_div (by omega), Nat.div_eq_of_lt hb, Nat.add_zero]
    have q2 : (a * cols + b) % cols = b := by
      rw [Nat.mul_comm, Nat.mul_add_mod, Nat.mod_eq_of_lt hb]
    simp only [q1, q2]
    exact congrArg some (v3 a b ha hb)
  refine ⟨d, d1, fun i hi hi' => ?_, fun a b ha hb hm => ?_⟩
  · obtain ⟨l1, l2⟩ := hp.inside _ (List.getElem_mem hi)
    rw [hcell _ _ l1 l2, signal_on hp.nodup v hi, v2 i hi']
  · rw [hcell a b ha hb, signal_off v hm]

/-- The wire of the diodes and its electrons. -/
abbrev diodesAt (t : Nat) : Electrons := (electronsIn 14 diodesInit).run 13 14 (cellsIn 14 diodesInit [1, 2, 3]) t

/-- The wire of the gate and its electrons. -/
abbrev xorAt (t : Nat) : Electrons := (electronsIn 24 xorInit).run 13 24 (cellsIn 24 xorInit [1, 2, 3]) t

theorem diodes_back : diodesAt (8 + 14) = diodesAt 8 := by decide +kernel
theorem xor_back : xorAt (0 + 18) = xorAt 0 := by decide +kernel

theorem diodes_length : diodesInit.length = 182 := by decide +kernel
theorem xor_length : xorInit.length = 312 := by decide +kernel

theorem diodes_picture : ∀ x, x < 182 →
    diodesInit[x]? = some (wirePicture (cellsIn 14 diodesInit [1, 2, 3]) (electronsIn 14 diodesInit) (x / 14) (x % 14)) := by decide +kernel
theorem xor_picture : ∀ x, x < 312 →
    xorInit[x]? = some (wirePicture (cellsIn 24 xorInit [1, 2, 3]) (electronsIn 24 xorInit) (x / 24) (x % 24)) := by decide +kernel

theorem diodes_upper (t : Nat) (ht : t < 22) (c : Nat) (hc : c < 14) (h7 : c ≠ 7) : (3, c) ∈ (diodesAt t).heads ↔ c = (1 + t) % 14 :=
  (show ∀ t : Fin 22, ∀ c : Fin 14, c.1 ≠ 7 → ((3, c.1) ∈ (diodesAt t.1).heads ↔ c.1 = (1 + t.1) % 14) by decide +kernel) ⟨t, ht⟩ ⟨c, hc⟩ h7
theorem diodes_lower (t : Nat) (ht : t < 22) (c : Nat) (hc : c < 14) (h8 : 8 ≤ c) : (9, c) ∉ (diodesAt t).heads :=
  (show ∀ t : Fin 22, ∀ c : Fin 14, 8 ≤ c.1 → (9, c.1) ∉ (diodesAt t.1).heads by decide +kernel) ⟨t, ht⟩ ⟨c, hc⟩ h8
theorem diodes_late : ∀ j, j < 14 → ∀ p ∈ (diodesAt (8 + j)).heads ++ (diodesAt (8 + j)).tails, p.1 < 5 := by decide +kernel

theorem xor_first : ∀ t, t < 18 →
    ((6, 20) ∈ (xorAt (t + 4)).heads ↔ ¬ ((3, 16) ∈ (xorAt t).heads ↔ (9, 16) ∈ (xorAt t).heads)) := by decide +kernel

theorem xor_inputs : ((3, 16) ∈ (xorAt 4).heads ∧ (9, 16) ∈ (xorAt 4).heads) ∧ ((3, 16) ∉ (xorAt 10).heads ∧ (9, 16) ∈ (xorAt 10).heads) ∧
    ((3, 16) ∈ (xorAt 16).heads ∧ (9, 16) ∉ (xorAt 16).heads) ∧ ((3, 16) ∉ (xorAt 5).heads ∧ (9, 16) ∉ (xorAt 5).heads) := by decide +kernel

/-- Times from 8 on are times before 22. -/
theorem diodes_mod (t : Nat) (h : 8 ≤ t) : ∃ j, j < 14 ∧ (1 + t) % 14 = (1 + (8 + j)) % 14 ∧ diodesAt t = diodesAt (8 + j) := by
  refine ⟨(t - 8) % 14, Nat.mod_lt _ (by omega), by omega, ?_⟩
  have := run_mod diodes_back ((t - 8) / 14) ((t - 8) % 14)
  rw [show 8 + (t - 8) % 14 + 14 * ((t - 8) / 14) = t by omega] at this
  exact this

theorem xor_mod (t : Nat) : xorAt t = xorAt (t % 18) := by
  have := run_mod xor_back (t / 18) (t % 18)
  rw [show 0 + t % 18 + 18 * (t / 18) = t by omega, Nat.zero_add] at this
  exact this

theorem picture_one {wire : List (Nat × Nat)} {e : Electrons} {a b : Nat} : wirePicture wire e a b = 1 ↔ (a, b) ∈ e.heads := by
  unfold wirePicture
  by_cases h : e.heads.contains (a, b) = true
  · rw [if_pos h]
    exact ⟨fun _ => List.contains_iff_mem.1 h, fun _ => rfl⟩
  · rw [if_neg h]
    rw [List.contains_iff_mem] at h
    refine ⟨fun hx => ?_, fun hx => absurd hx h⟩
    split at hx
    · cases hx
    · split at hx <;> cases hx

theorem picture_two {wire : List (Nat × Nat)} {e : Electrons} {a b : Nat} (hx : wirePicture wire e a b = 2) : (a, b) ∈ e.tails := by
  unfold wirePicture at hx
  split at hx
  · cases hx
  · split at hx
    · rename_i h; exact List.contains_iff_mem.1 h
    · split at hx <;> cases hx

theorem drawn_disjoint (cols : Nat) (l : List Int) :
    (∀ p ∈ (electronsIn cols l).heads, p ∈ cellsIn cols l [1, 2, 3]) ∧ ∀ p ∈ (electronsIn cols l).tails, p ∈ cellsIn cols l [1, 2, 3] := by
  constructor <;>
  · intro p hp
    simp only [electronsIn, cellsIn, List.mem_map, List.mem_filter, List.contains_iff_mem, List.mem_cons, List.not_mem_nil, or_false] at hp ⊢
    obtain ⟨x, ⟨h1, h2⟩, h3⟩ := hp
    exact ⟨x, ⟨h1, by simp [h2]⟩, h3⟩

theorem diodes_disjoint : ∀ p ∈ (electronsIn 14 diodesInit).heads, p ∉ (electronsIn 14 diodesInit).tails := by decide +kernel
theorem xor_disjoint : ∀ p ∈ (electronsIn 24 xorInit).heads, p ∉ (electronsIn 24 xorInit).tails := by decide +kernel

/-- C119, the diodes of the demo, for any number of timesteps.  In the upper row (row 3) the electron passes the diode and runs
around the torus for ever: at time `t` the head is in the column `1 + t` modulo 14 (the column 7 has no cell in this row: there
the signal goes around).  In the lower row (row 9) there is never a head from column 8 on, and from time 8 on there is no
electron in the lower half at all. -/
theorem C119_diodes (cfg : Config Nat Int Int I σ κ) (T : Nat) (hT : 1 ≤ T) (h : cfg.Ordinary (orNone wireworld?) T)
    (hnat : cfg.natLabel = id) (N : Net Nat Int) (hN : cellularAutomaton2d 13 14 1 "Moore" true = .ok N) (r : Nat) (w : World Nat Int σ)
    (hr : w.heap[r]? = some N) (fuel : Nat) (hf : T ≤ fuel) :
    ∃ res, evolve fuel cfg (some (.list diodesInit)) r w = .ok res ∧ ∀ t, t < T → ∃ d, res.acts cfg t = some d ∧
      (∀ c, c < 14 → c ≠ 7 → (d.get? (3 * 14 + c) = some 1 ↔ c = (1 + t) % 14)) ∧
      (∀ c, c < 14 → 8 ≤ c → d.get? (9 * 14 + c) ≠ some 1) ∧
      (8 ≤ t → ∀ a b, 5 ≤ a → a < 13 → b < 14 → d.get? (a * 14 + b) = some 0 ∨ d.get? (a * 14 + b) = some 3) := by
  obtain ⟨i1, i2, i3⟩ := initDict_list hnat diodesInit
  obtain ⟨res, e, _, e3⟩ := C119_sets 13 14 (by omega) (by omega) (cellsIn 14 diodesInit [1, 2, 3]) (electronsIn 14 diodesInit)
    (fun p hp => ⟨(drawn_disjoint 14 diodesInit).1 p hp, diodes_disjoint p hp⟩) (drawn_disjoint 14 diodesInit).2 cfg T hT h N hN r w hr
    (some (.list diodesInit)) (by rw [i1, diodes_length]) (by
      intro a b ha hb
      rw [i3 _ (by rw [diodes_length]; omega), diodes_picture _ (by omega), show (a * 14 + b) / 14 = a by omega, show (a * 14 + b) % 14 = b by omega]) fuel hf
  refine ⟨res, e, fun t ht => ?_⟩
  obtain ⟨d, d1, _, d3⟩ := e3 t ht
  have hcell : ∀ a b, a < 13 → b < 14 → d.get? (a * 14 + b) = some (wirePicture (cellsIn 14 diodesInit [1, 2, 3]) (diodesAt t) a b) := by
    intro a b ha hb
    rw [d3 _ (by omega)]
    simp only [show (a * 14 + b) / 14 = a by omega, show (a * 14 + b) % 14 = b by omega]
  refine ⟨d, d1, fun c hc h7 => ?_, fun c hc h7 => ?_, fun h8 a b ha ha' hb => ?_⟩
  · rw [hcell 3 c (by omega) hc, Option.some.injEq, picture_one]
    rcases Nat.lt_or_ge t 8 with g | g
    · exact diodes_upper t (by omega) c hc h7
    · obtain ⟨j, j1, j2, j3⟩ := diodes_mod t g
      rw [j2, j3]
      exact diodes_upper (8 + j) (by omega) c hc h7
  · rw [hcell 9 c (by omega) hc, Ne, Option.some.injEq, picture_one]
    rcases Nat.lt_or_ge t 8 with g | g
    · exact diodes_lower t (by omega) c hc h7
    · obtain ⟨j, j1, j2, j3⟩ := diodes_mod t g
      rw [j3]
      exact diodes_lower (8 + j) (by omega) c hc h7
  · rw [hcell a b ha' hb, Option.some.injEq, Option.some.injEq]
    obtain ⟨j, j1, _, j3⟩ := diodes_mod t h8
    have hl := diodes_late j j1
    rw [← j3] at hl
    have n1 : wirePicture (cellsIn 14 diodesInit [1, 2, 3]) (diodesAt t) a b ≠ 1 := by
      intro hx
      have := hl (a, b) (List.mem_append_left _ (picture_one.1 hx))
      simp only at this
      omega
    have n2 : wirePicture (cellsIn 14 diodesInit [1, 2, 3]) (diodesAt t) a b ≠ 2 := by
      intro hx
      have := hl (a, b) (List.mem_append_right _ (picture_two hx))
      simp only at this
      omega
    unfold wirePicture at n1 n2 ⊢
    split
    · rename_i hx; rw [if_pos hx] at n1; exact absurd rfl n1
    · rename_i hx
      rw [if_neg hx] at n2
      split
      · rename_i hy; rw [if_pos hy] at n2; exact absurd rfl n2
      · split
        · exact Or.inr rfl
        · exact Or.inl rfl

/-- C119, the gate of the demo, for any number of timesteps.  The circuit repeats itself every 18 steps, and four steps after
any time `t` there is a head at the output (cell (6, 20)) exactly if at time `t` there was one at one of the two inputs (cells
(3, 16) and (9, 16)) but not at the other.  All four combinations occur: at the times 4, 10, 16 and 5. -/
theorem C119_xor (cfg : Config Nat Int Int I σ κ) (T : Nat) (hT : 1 ≤ T) (h : cfg.Ordinary (orNone wireworld?) T)
    (hnat : cfg.natLabel = id) (N : Net Nat Int) (hN : cellularAutomaton2d 13 24 1 "Moore" true = .ok N) (r : Nat) (w : World Nat Int σ)
    (hr : w.heap[r]? = some N) (fuel : Nat) (hf : T ≤ fuel) :
    ∃ res, evolve fuel cfg (some (.list xorInit)) r w = .ok res ∧
      (∀ t, t + 18 < T → ∃ d d', res.acts cfg t = some d ∧ res.acts cfg (t + 18) = some d' ∧ ∀ x, x < 312 → d'.get? x = d.get? x) ∧
      (∀ t, t + 4 < T → ∃ d d', res.acts cfg t = some d ∧ res.acts cfg (t + 4) = some d' ∧
        (d'.get? (6 * 24 + 20) = some 1 ↔ ¬ (d.get? (3 * 24 + 16) = some 1 ↔ d.get? (9 * 24 + 16) = some 1))) ∧
      ∀ t up low, (t, up, low) ∈ [(4, true, true), (10, false, true), (16, true, false), (5, false, false)] → t < T →
        ∃ d, res.acts cfg t = some d ∧ (d.get? (3 * 24 + 16) = some 1 ↔ up = true) ∧ (d.get? (9 * 24 + 16) = some 1 ↔ low = true) := by
  obtain ⟨i1, i2, i3⟩ := initDict_list hnat xorInit
  obtain ⟨res, e, _, e3⟩ := C119_sets 13 24 (by omega) (by omega) (cellsIn 24 xorInit [1, 2, 3]) (electronsIn 24 xorInit)
    (fun p hp => ⟨(drawn_disjoint 24 xorInit).1 p hp, xor_disjoint p hp⟩) (drawn_disjoint 24 xorInit).2 cfg T hT h N hN r w hr
    (some (.list xorInit)) (by rw [i1, xor_length]) (by
      intro a b ha hb
      rw [i3 _ (by rw [xor_length]; omega), xor_picture _ (by omega), show (a * 24 + b) / 24 = a by omega, show (a * 24 + b) % 24 = b by omega]) fuel hf
  have hget : ∀ t, t < T → ∃ d, res.acts cfg t = some d ∧
      (∀ x, x < 312 → d.get? x = some (wirePicture (cellsIn 24 xorInit [1, 2, 3]) (xorAt t) (x / 24) (x % 24))) ∧
      ∀ a b, a < 13 → b < 24 → (d.get? (a * 24 + b) = some 1 ↔ (a, b) ∈ (xorAt t).heads) := by
    intro t ht
    obtain ⟨d, d1, _, d3⟩ := e3 t ht
    refine ⟨d, d1, d3, fun a b ha hb => ?_⟩
    rw [d3 _ (by omega), Option.some.injEq, picture_one, show (a * 24 + b) / 24 = a by omega, show (a * 24 + b) % 24 = b by omega]
  refine ⟨res, e, fun t ht => ?_, fun t ht => ?_, fun t up low hm ht => ?_⟩
  · obtain ⟨d, d1, d2, _⟩ := hget t (by omega)
    obtain ⟨d', d1', d2', _⟩ := hget (t + 18) ht
    refine ⟨d, d', d1, d1', fun x hx => ?_⟩
    rw [d2 x hx, d2' x hx, xor_mod (t + 18), Nat.add_mod_right, ← xor_mod t]
  · obtain ⟨d, d1, _, d2⟩ := hget t (by omega)
    obtain ⟨d', d1', _, d2'⟩ := hget (t + 4) ht
    refine ⟨d, d', d1, d1', ?_⟩
    rw [d2' 6 20 (by omega) (by omega), d2 3 16 (by omega) (by omega), d2 9 16 (by omega) (by omega)]
    have := xor_first (t % 18) (Nat.mod_lt _ (by omega))
    rw [xor_mod (t % 18 + 4), show (t % 18 + 4) % 18 = (t + 4) % 18 by omega, ← xor_mod (t + 4), ← xor_mod t] at this
    exact this
  · obtain ⟨d, d1, _, d2⟩ := hget t ht
    refine ⟨d, d1, ?_⟩
    rw [d2 3 16 (by omega) (by omega), d2 9 16 (by omega) (by omega)]
    obtain ⟨x1, x2, x3, x4⟩ := xor_inputs
    simp only [List.mem_cons, Prod.mk.injEq, List.not_mem_nil, or_false] at hm
    rcases hm with ⟨rfl, rfl, rfl⟩ | ⟨rfl, rfl, rfl⟩ | ⟨rfl, rfl, rfl⟩ | ⟨rfl, rfl, rfl⟩
    · exact ⟨iff_of_true x1.1 rfl, iff_of_true x1.2 rfl⟩
    · exact ⟨iff_of_false x2.1 (by decide), iff_of_true x2.2 rfl⟩
    · exact ⟨iff_of_true x3.1 rfl, iff_of_false x3.2 (by decide)⟩
    · exact ⟨iff_of_false x4.1 (by decide), iff_of_false x4.2 (by decide)⟩

end

/-- The call of the demo with the diodes, for a million timesteps. -/
example : ∃ N res, cellularAutomaton2d 13 14 1 "Moore" true = .ok N ∧
    evolve 1000000 ({ Ex.base with rule := some (pureRule (orNone wireworld?)), input := .timesteps 1000000 }) (some (.list diodesInit)) 0 ⟨[N], []⟩ = .ok res := by
  obtain ⟨N, hN, _⟩ := C44_centre_partial.2 13 14 1 "Moore" (by decide) (by decide)
  obtain ⟨res, h1, _⟩ := C119_diodes { Ex.base with rule := some (pureRule (orNone wireworld?)), input := .timesteps 1000000 } 1000000 (by omega)
    ⟨rfl, rfl, rfl, rfl, rfl, rfl, rfl⟩ rfl N hN 0 ⟨[N], []⟩ rfl 1000000 (by omega)
  exact ⟨N, res, hN, h1⟩
/-- The call of the demo with the gate. -/
example : ∃ N res, cellularAutomaton2d 13 24 1 "Moore" true = .ok N ∧
    evolve 25 ({ Ex.base with rule := some (pureRule (orNone wireworld?)), input := .timesteps 25 }) (some (.list xorInit)) 0 ⟨[N], []⟩ = .ok res := by
  obtain ⟨N, hN, _⟩ := C44_centre_partial.2 13 24 1 "Moore" (by decide) (by decide)
  obtain ⟨res, h1, _⟩ := C119_xor { Ex.base with rule := some (pureRule (orNone wireworld?)), input := .timesteps 25 } 25 (by omega)
    ⟨rfl, rfl, rfl, rfl, rfl, rfl, rfl⟩ rfl N hN 0 ⟨[N], []⟩ rfl 25 (by omega)
  exact ⟨N, res, hN, h1⟩
/-- A ring of eight cells with two trains on a torus of 7 × 8 cells: the hypotheses of `C119_loop` are met. -/
example : ClosedWire 7 8 [(1, 2), (1, 3), (2, 4), (3, 4), (4, 3), (4, 2), (3, 1), (2, 1)] := by
  refine ⟨by decide, by decide, ?_⟩
  have : ∀ i : Fin 8, ∀ j : Fin 8,
      ((∃ d ∈ moore8, torusCell 7 8 [(1, 2), (1, 3), (2, 4), (3, 4), (4, 3), (4, 2), (3, 1), (2, 1)][i] d =
        [(1, 2), (1, 3), (2, 4), (3, 4), (4, 3), (4, 2), (3, 1), (2, 1)][j]) ↔ j.1 = (i.1 + 1) % 8 ∨ i.1 = (j.1 + 1) % 8) := by decide +kernel
  intro i j hi hj
  exact this ⟨i, hi⟩ ⟨j, hj⟩
example : Trains 8 (fun i => [2, 1, 3, 3, 2, 1, 3, 3][i]?.getD 0) := ⟨by decide, by decide, by decide⟩
/-- A row of the torus is a closed wire as well. -/
example : ClosedWire 3 4 [(1, 0), (1, 1), (1, 2), (1, 3)] := by
  refine ⟨by decide, by decide, ?_⟩
  have : ∀ i : Fin 4, ∀ j : Fin 4, ((∃ d ∈ moore8, torusCell 3 4 [(1, 0), (1, 1), (1, 2), (1, 3)][i] d = [(1, 0), (1, 1), (1, 2), (1, 3)][j]) ↔
      j.1 = (i.1 + 1) % 4 ∨ i.1 = (j.1 + 1) % 4) := by decide +kernel
  intro i j hi hj
  exact this ⟨i, hi⟩ ⟨j, hj⟩

end Verif
