import Verif.Props.AverageInformation
import Verif.Props.Traffic
import Verif.Props.RunRows
/-! # C150, continued: the averages of runs of elementary cellular automata

`average_node_entropy_demo.py` and `average_mutual_information_demo.py` hand the trajectory of a run to the functions of
`analysis.py`, which convert it with `get_activities_over_time_as_list` first. -/

namespace Verif

/-- A row that alternates between 0 and 1 all around the ring. -/
def Spec.Alternating (n : Nat) (s : Nat → Nat) : Prop := ∀ x, x < n → s ((x + 1) % n) = 1 - s x

private theorem around_ring {n : Nat} {Q : Nat → Prop} (hQ : ∀ x, x < n → Q x → Q ((x + 1) % n)) {x : Nat} (hx : x < n)
    (h : Q x) : ∀ y, y < n → Q y := by
  have key : ∀ k, Q ((x + k) % n) := by
    intro k
    induction k with
    | zero => rw [Nat.add_zero, Nat.mod_eq_of_lt hx]; exact h
    | succ k ih =>
      have := hQ _ (Nat.mod_lt _ (by omega)) ih
      rwa [Nat.mod_add_mod] at this
  intro y hy
  have := key (n - x + y)
  rwa [show x + (n - x + y) = y + n by omega, Nat.add_mod_right, Nat.mod_eq_of_lt hy] at this

private theorem rule30_values : ∀ l c r : Fin 2, ecaRule 30 l c r = if c.1 = 1 then 1 - l.1 else (l.1 + r.1) % 2 := by decide

private theorem rule30_value {l c r : Nat} (hl : l < 2) (hc : c < 2) (hr : r < 2) :
    ecaRule 30 l c r = if c = 1 then 1 - l else (l + r) % 2 := rule30_values ⟨l, hl⟩ ⟨c, hc⟩ ⟨r, hr⟩

/-- The rows that rule 30 leaves alone: all cells 0, or 0 and 1 alternate. -/
theorem rule30_fixed {n : Nat} (hn : 0 < n) {s : Nat → Nat} (hs : BinaryRow n s) :
    (∀ x, x < n → eca n 30 s 1 x = s x) ↔ (∀ x, x < n → s x = 0) ∨ Spec.Alternating n s := by
  have step : ∀ x, x < n → eca n 30 s 1 x = if s x = 1 then 1 - s ((x + n - 1) % n) else (s ((x + n - 1) % n) + s ((x + 1) % n)) % 2 :=
    fun x hx => by
      rw [eca_one]; exact rule30_value (hs _ (Nat.mod_lt _ hn)) (hs _ hx) (hs _ (Nat.mod_lt _ hn))
  have back : ∀ x, x < n → ((x + 1) % n + n - 1) % n = x := by
    intro x hx
    by_cases h : x + 1 < n
    · rw [Nat.mod_eq_of_lt h, show x + 1 + n - 1 = x + n by omega, Nat.add_mod_right, Nat.mod_eq_of_lt hx]
    · rw [show x + 1 = n by omega, Nat.mod_self, Nat.mod_eq_of_lt (show 0 + n - 1 < n by omega)]; omega
  have forth : ∀ x, x < n → ((x + n - 1) % n + 1) % n = x := by
    intro x hx
    rw [Nat.mod_add_mod, show x + n - 1 + 1 = x + n by omega, Nat.add_mod_right, Nat.mod_eq_of_lt hx]
  constructor
  · intro h
    by_cases ha : ∀ x, x < n → s ((x + 1) % n) ≠ s x
    · right
      intro x hx
      have h1 := ha x hx
      have h2 := hs x hx
      have h3 := hs _ (Nat.mod_lt (x + 1) hn)
      omega
    · left
      simp only [not_forall, not_not] at ha
      obtain ⟨x, hx, he⟩ := ha
      have all : ∀ y, y < n → s ((y + 1) % n) = s y := by
        refine around_ring (Q := fun y => s ((y + 1) % n) = s y) ?_ hx he
        intro y hy hQ
        have hy' := Nat.mod_lt (y + 1) hn
        have e := h _ hy'
        rw [step _ hy', back y hy] at e
        have h1 := hs y hy
        have h2 := hs _ hy'
        have h3 := hs _ (Nat.mod_lt ((y + 1) % n + 1) hn)
        show s (((y + 1) % n + 1) % n) = s ((y + 1) % n)
        split at e <;> omega
      intro y hy
      have e := h y hy
      have h1 := all _ (Nat.mod_lt (y + n - 1) hn)
      rw [forth y hy] at h1
      rw [step y hy] at e
      have h2 := hs y hy
      have h3 := hs _ (Nat.mod_lt (y + n - 1) hn)
      split at e <;> omega
  · rintro (h | h) x hx
    · rw [step x hx, h x hx, h _ (Nat.mod_lt _ hn), h _ (Nat.mod_lt _ hn)]; rfl
    · have h1 := h x hx
      have h2 := h _ (Nat.mod_lt (x + n - 1) hn)
      rw [forth x hx] at h2
      have h3 := hs x hx
      have h4 := hs _ (Nat.mod_lt (x + n - 1) hn)
      rw [step x hx]
      split <;> omega

private theorem fixed_stays {n R : Nat} (hn : 0 < n) {s : Nat → Nat} (h : ∀ x, x < n → eca n R s 1 x = s x) :
    ∀ t x, x < n → eca n R s t x = s x := by
  intro t
  induction t with
  | zero => intro x _; rfl
  | succ t ih =>
    intro x hx
    rw [eca_succ_one, eca_congr hn ih 1 x hx, h x hx]

section
variable {I σ κ : Type} [DecidableEq κ]

/-- The rows that `get_activities_over_time_as_list` makes of the result of a call. -/
noncomputable def Spec.rowsOfRun (cfg : Config Nat Int Int I σ κ) (res : Evolved Nat Int Int σ) : List (List Int) :=
  activitiesOverTime (fun a b => decide (a ≤ b)) ((List.range res.states.length).map (res.acts cfg))

omit [DecidableEq κ] in
private theorem rows_of_shows {n T : Nat} (hn : 0 < n) {cfg : Config Nat Int Int I σ κ} {res : Evolved Nat Int Int σ} {f : Nat → Nat → Int}
    (h : ShowsRun cfg res T n f) : Spec.rowsOfRun cfg res = (List.range T).map (fun t => (List.range n).map (f t)) := by
  unfold Spec.rowsOfRun
  rw [h.1, C72_run_nat hn h]

private theorem eca_rows {n R T : Nat} {s : Nat → Nat} {cfg : Config Nat Int Int I σ κ} {res : Evolved Nat Int Int σ}
    (h : EcaCall n R T s cfg res) :
    Spec.rowsOfRun cfg res = (List.range T).map (fun t => (List.range n).map (fun x => (eca n R s t x : Int))) := by
  obtain ⟨N, r, w, init, fuel, h1, h2, h3, h4, h5, h6⟩ := h.call
  obtain ⟨res', e1, e2⟩ := C46_elementary_ca n R h.cells h.number cfg T h.steps h.ordinary N h1 r w h2 init s h.row h3 h4 fuel h5
  rw [h6] at e1
  cases e1
  exact rows_of_shows (by have := h.cells; omega) e2

/-- What the rows of a run of an elementary cellular automaton are made of. -/
private theorem eca_rows_facts {n R T : Nat} {s : Nat → Nat} {cfg : Config Nat Int Int I σ κ} {res : Evolved Nat Int Int σ}
    (h : EcaCall n R T s cfg res) (str : Int → List Char) (h0 : str 0 = ['0']) (h1 : str 1 = ['1']) :
    Spec.rowsOfRun cfg res ≠ [] ∧ (Spec.rowsOfRun cfg res).length = T ∧ (∀ r ∈ Spec.rowsOfRun cfg res, r.length = n)
      ∧ (∀ r ∈ Spec.rowsOfRun cfg res, ∀ a ∈ r, a ∈ ({0, 1} : Finset Int)) ∧ Spec.OneCharacter str (Spec.rowsOfRun cfg res) := by
  have hT := h.steps
  have hn := h.cells
  have hl : (Spec.rowsOfRun cfg res).length = T := by rw [eca_rows h]; simp
  have hv : ∀ r ∈ Spec.rowsOfRun cfg res, ∀ a ∈ r, a = 0 ∨ a = 1 := by
    rw [eca_rows h]
    intro r hr a ha
    obtain ⟨t, _, rfl⟩ := List.mem_map.mp hr
    obtain ⟨x, hx, rfl⟩ := List.mem_map.mp ha
    have := eca_binary (R := R) (show 0 < n by omega) h.row t x (List.mem_range.mp hx)
    omega
  refine ⟨?_, hl, ?_, ?_, ?_, ?_⟩
  · intro he; rw [he] at hl; simp at hl; omega
  · rw [eca_rows h]
    intro r hr
    obtain ⟨t, _, rfl⟩ := List.mem_map.mp hr
    simp
  · intro r hr a ha
    simpa using hv r hr a ha
  · intro r hr a ha
    rcases hv r hr a ha with rfl | rfl
    · rw [h0]; rfl
    · rw [h1]; rfl
  · intro r hr a ha r' hr' b hb he
    rcases hv r hr a ha with rfl | rfl <;> rcases hv r' hr' b hb with rfl | rfl
    · rfl
    · rw [h0, h1] at he; exact absurd he (by decide)
    · rw [h0, h1] at he; exact absurd he (by decide)
    · rfl

private theorem logb_two {k : Nat} (h : k = 2) : Real.logb 2 (k : ℝ) = 1 := by
  subst h
  exact Real.logb_self_eq_one (by norm_num)

/-- **C150.** The average node entropy of a run of an elementary cellular automaton is at most one bit. -/
theorem C150_one_bit {n R T : Nat} {s : Nat → Nat} {cfg : Config Nat Int Int I σ κ} {res : Evolved Nat Int Int σ}
    (h : EcaCall n R T s cfg res) (str : Int → List Char) (h0 : str 0 = ['0']) (h1 : str 1 = ['1']) :
    ∃ e, averageNodeEntropy str (Spec.rowsOfRun cfg res) = .ok e ∧ 0 ≤ e ∧ e ≤ 1 := by
  obtain ⟨f1, _, f3, f4, f5⟩ := eca_rows_facts h str h0 h1
  have hn := h.cells
  obtain ⟨e, e1, e2, e3⟩ := C150_bounds str _ n f1 f3 (by omega) f5 {0, 1} f4
  exact ⟨e, e1, e2, e3.trans (logb_two (by decide)).le⟩

/-- **C150.** So is its average mutual information, at every distance that is less than the number of states and of cells. -/
theorem C150_one_bit_shared {n R T : Nat} {s : Nat → Nat} {cfg : Config Nat Int Int I σ κ} {res : Evolved Nat Int Int σ}
    (h : EcaCall n R T s cfg res) (str : Int → List Char) (h0 : str 0 = ['0']) (h1 : str 1 = ['1'])
    (order : List Char → List Char) (horder : ∀ s, Spec.Enumerates (order s) s) (d : Nat) (hd0 : 0 < d) (hd : d < n) (hT : d < T) :
    ∃ m, averageMutualInformation str order (Spec.rowsOfRun cfg res) d = .ok m ∧ 0 ≤ m ∧ m ≤ 1 := by
  obtain ⟨f1, f2, f3, f4, f5⟩ := eca_rows_facts h str h0 h1
  obtain ⟨m, b, a, m1, b1, _, m2, m3, _⟩ := C150_between str order horder _ n d f3 hd0 hd (by rw [f2]; exact hT) f5
  refine ⟨m, m1, m2, m3.trans ?_⟩
  have sub : ∀ r ∈ (Spec.rowsOfRun cfg res).take ((Spec.rowsOfRun cfg res).length - d), r ∈ Spec.rowsOfRun cfg res :=
    fun r hr => List.mem_of_mem_take hr
  obtain ⟨e, e1, _, e3⟩ := C150_bounds str ((Spec.rowsOfRun cfg res).take ((Spec.rowsOfRun cfg res).length - d)) n
    (by intro he; have := congrArg List.length he; simp [f2] at this; omega) (fun r hr => f3 r (sub r hr)) (by omega)
    ⟨fun r hr => f5.1 r (sub r hr), fun r hr a ha r' hr' => f5.2 r (sub r hr) a ha r' (sub r' hr')⟩ {0, 1}
    (fun r hr => f4 r (sub r hr))
  rw [b1] at e1
  cases e1
  exact e3.trans (logb_two (by decide)).le

/-- **C150.** The average node entropy of a run of at least two states is 0 exactly if the rule does not change the initial
conditions. -/
theorem C150_still {n R T : Nat} {s : Nat → Nat} {cfg : Config Nat Int Int I σ κ} {res : Evolved Nat Int Int σ}
    (h : EcaCall n R T s cfg res) (hT : 2 ≤ T) (str : Int → List Char) (h0 : str 0 = ['0']) (h1 : str 1 = ['1']) :
    averageNodeEntropy str (Spec.rowsOfRun cfg res) = .ok 0 ↔ ∀ x, x < n → eca n R s 1 x = s x := by
  obtain ⟨f1, _, f3, _, f5⟩ := eca_rows_facts h str h0 h1
  have hn := h.cells
  rw [C150_zero_iff str _ n f1 f3 (by omega) f5, eca_rows h]
  constructor
  · intro he x hx
    have := he _ (List.mem_map.mpr ⟨1, List.mem_range.mpr (by omega), rfl⟩) _ (List.mem_map.mpr ⟨0, List.mem_range.mpr (by omega), rfl⟩)
    have := List.map_inj_left.mp this x (List.mem_range.mpr hx)
    exact_mod_cast this
  · intro he r hr r' hr'
    obtain ⟨t, _, rfl⟩ := List.mem_map.mp hr
    obtain ⟨t', _, rfl⟩ := List.mem_map.mp hr'
    apply List.map_congr_left
    intro x hx
    rw [fixed_stays (by omega) he t x (List.mem_range.mp hx), fixed_stays (by omega) he t' x (List.mem_range.mp hx)]

/-- **C150, the demo** (`average_node_entropy_demo.py:4-14`).  "The value will be ~0.999 in this case" is not so for all initial
conditions: it is 0 exactly for three of them, all cells 0 and the two rows in which 0 and 1 alternate. -/
theorem C150_demo {s : Nat → Nat} {cfg : Config Nat Int Int I σ κ} {res : Evolved Nat Int Int σ}
    (h : EcaCall 200 30 1000 s cfg res) (str : Int → List Char) (h0 : str 0 = ['0']) (h1 : str 1 = ['1']) :
    averageNodeEntropy str (Spec.rowsOfRun cfg res) = .ok 0 ↔ (∀ x, x < 200 → s x = 0) ∨ Spec.Alternating 200 s := by
  rw [C150_still h (by decide) str h0 h1, rule30_fixed (by decide) h.row]

end

/-- The alternating row of 200 cells. -/
example : BinaryRow 200 (fun x => x % 2) ∧ Spec.Alternating 200 (fun x => x % 2) := by
  refine ⟨fun x _ => Nat.mod_lt _ (by decide), fun x hx => ?_⟩
  show (x + 1) % 200 % 2 = 1 - x % 2
  omega

/-- The options of the demo. -/
def Ex.entropyDemo : Config Nat Int Int Int (List Int) Unit :=
  { Ex.base with
    rule := some (pureRule (nksCaRule 30))
    input := .timesteps 1000 }

/-- The call of the demo, from the alternating row. -/
example : ∃ res, EcaCall 200 30 1000 (fun x => x % 2)
    Ex.entropyDemo res := by
  obtain ⟨N, _, hN, _⟩ := C43_left_to_right 200 1 (by omega) (by omega)
  have hl := initDict_list (cfg := Ex.entropyDemo) rfl
    ((List.range 200).map (fun x => ((x % 2 : Nat) : Int)))
  have h1 : (initDict Ex.entropyDemo (some (.list ((List.range 200).map (fun x => ((x % 2 : Nat) : Int)))))).length = 200 := by
    rw [hl.1]; simp
  have h2 : ∀ x, x < 200 → (initDict Ex.entropyDemo
      (some (.list ((List.range 200).map (fun x => ((x % 2 : Nat) : Int)))))).get? x = some ((x % 2 : Nat) : Int) := by
    intro x hx
    rw [hl.2.2 x (by simpa using hx), List.getElem?_map, List.getElem?_range hx]
    rfl
  obtain ⟨res, e1, _⟩ := C46_elementary_ca 200 30 (by omega) (by omega)
    Ex.entropyDemo 1000 (by omega)
    ⟨rfl, rfl, rfl, rfl, rfl, rfl, rfl⟩ N hN 0 ⟨[N], []⟩ rfl (some (.list ((List.range 200).map (fun x => ((x % 2 : Nat) : Int)))))
    (fun x => x % 2) (fun x _ => Nat.mod_lt _ (by decide)) h1 h2 1000 (by omega)
  exact ⟨res, by decide, by decide, by decide, ⟨rfl, rfl, rfl, rfl, rfl, rfl, rfl⟩, fun x _ => Nat.mod_lt _ (by decide),
    N, 0, ⟨[N], []⟩, some (.list ((List.range 200).map (fun x => ((x % 2 : Nat) : Int)))), 1000, hN, rfl, h1, h2, Nat.le_refl _, e1⟩

end Verif
