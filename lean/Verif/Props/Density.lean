import Verif.Proofs.Density
import Verif.Props.EndToEnd
/-! # Property C121: automata with a larger radius, and the density classification of the demo -/

namespace Verif
open Spec
section
variable {I σ κ : Type} [DecidableEq κ]

theorem bitsValue_numeral : ∀ (l : List Nat) (a : Nat),
    (l.map (fun v : Nat => (v : Int))).foldl (fun a b => 2 * a + b) (a : Int) =
      ((l.foldl (fun a b => 2 * a + b) a : Nat) : Int) := by
  intro l
  induction l with
  | nil => intro a; rfl
  | cons b l ih =>
    intro a
    simp only [List.map_cons, List.foldl_cons]
    rw [← ih]
    congr 1

theorem numeral_cast (l : List Nat) : (numeral (l.map (fun v : Nat => (v : Int)))).toNat = bitsValue l := by
  unfold numeral bitsValue
  have := bitsValue_numeral l 0
  rw [show ((0 : Nat) : Int) = 0 from rfl] at this
  rw [this]
  rfl

theorem mitchellRule_lt (R : Nat) (l : List Nat) : mitchellRule R l < 2 := Nat.mod_lt _ (by decide)

theorem localCA_lt {n r R : Nat} {s : Nat → Nat} (hs : ∀ x, x < n → s x < 2) :
    ∀ t x, x < n → localCA n r (mitchellRule R) s t x < 2 := by
  intro t
  cases t with
  | zero => exact hs
  | succ t => intro x _; exact mitchellRule_lt _ _

theorem ringCell_window {n r x k : Nat} (hn : 2 * r + 1 ≤ n) :
    ringCell n x ((k : Int) - (r : Int)) = (x + n - r + k) % n := by
  unfold ringCell
  have : ((x : Int) + ((k : Int) - (r : Int))) % (n : Int) = (((x + n - r + k) % n : Nat) : Int) := by
    rw [Int.natCast_emod, ← Int.add_emod_right]
    congr 1
    omega
  rw [this]; rfl

/-- C121.  On `cellular_automaton(n, r=r)` with at least `2r + 1` and three cells, with `binary_ca_rule(R)` (default
scheme) and any binary initial conditions, an ordinary call of `evolve` (memoized or not) returns, and its states are
the automaton of radius `r` whose local rule has the number `R`. -/
theorem C121_run (n r R : Nat) (hn : 3 ≤ n) (hrn : 2 * r + 1 ≤ n) (hR : R < 2 ^ 2 ^ (2 * r + 1))
    (cfg : Config Nat Int Int I σ κ) (T : Nat) (hT : 1 ≤ T) (h : cfg.Ordinary (binaryCaRule (R : Int) false) T)
    (N : Net Nat Int) (hN : cellularAutomaton n r true = .ok N) (q : Nat)
    (w : World Nat Int σ) (hr : w.heap[q]? = some N) (init : Option (Conds Nat Int)) (s : Nat → Nat)
    (hs : ∀ x, x < n → s x < 2) (hlen : (initDict cfg init).length = n)
    (h0 : ∀ x, x < n → (initDict cfg init).get? x = some (s x : Int)) (fuel : Nat) (hf : T ≤ fuel) :
    ∃ res, evolve fuel cfg init q w = .ok res ∧
      ShowsRun cfg res T n (fun t x => (localCA n r (mitchellRule R) s t x : Int)) := by
  obtain ⟨N', rs, e1, e2, e3, e4⟩ := C43_left_to_right n r hn hrn
  rw [hN] at e1
  cases e1
  have hmap : ∀ t x, ((List.range (2 * r + 1)).map (fun k => (x + n - r + k) % n)).map
      (fun y => (localCA n r (mitchellRule R) s t y : Int)) =
      (ringWindow n r (localCA n r (mitchellRule R) s t) x).map (fun v : Nat => (v : Int)) := by
    intro t x
    simp only [ringWindow, List.map_map]
    rfl
  refine ca_run h hT (by omega) e3 (nb := fun x => (List.range (2 * r + 1)).map (fun k => (x + n - r + k) % n))
    ?_ hlen h0 ?_ ?_ hr hf
  · intro x hx
    refine ⟨?_, ?_⟩
    · simp only [specNbrs, e2]
      rw [e4 x hx]
      congr 1
      exact List.map_congr_left (fun k _ => ringCell_window hrn)
    · intro y hy
      obtain ⟨k, _, rfl⟩ := List.mem_map.1 hy
      exact Nat.mod_lt _ (by omega)
  · intro t ht x hx
    have hacts : (plainCtx cfg N (fun x => (List.range (2 * r + 1)).map (fun k => (x + n - r + k) % n))
        (initDict cfg init) (fun t x => (localCA n r (mitchellRule R) s t x : Int)) t x).neighbourActs =
        (ringWindow n r (localCA n r (mitchellRule R) s t) x).map (fun v : Nat => (v : Int)) := hmap t x
    have hlen' : (ringWindow n r (localCA n r (mitchellRule R) s t) x).length = 2 * r + 1 := by simp [ringWindow]
    rw [(C28_binary_ca R _ ?_ ?_).2.2.2]
    · rw [hacts, numeral_cast, List.length_map]
      rfl
    · rw [hacts]
      intro v hv
      obtain ⟨u, hu, rfl⟩ := List.mem_map.1 hv
      obtain ⟨k, _, rfl⟩ := List.mem_map.1 hu
      have := localCA_lt (r := r) (R := R) hs t ((x + n - r + k) % n) (Nat.mod_lt _ (by omega))
      omega
    · rw [hacts, List.length_map, hlen']
      exact hR
  · intro _
    refine ⟨by rw [e2]; rfl, ?_⟩
    intro t t' x x' ht ht' hx hx' heq
    have h1 := hmap t x
    have h2 := hmap t' x'
    rw [h1, h2] at heq
    have h3 : ringWindow n r (localCA n r (mitchellRule R) s t) x = ringWindow n r (localCA n r (mitchellRule R) s t') x' :=
      List.map_inj_right (fun _ _ e => Int.ofNat.inj e) |>.1 heq
    show ((mitchellRule R _ : Nat) : Int) = ((mitchellRule R _ : Nat) : Int)
    rw [h3]

theorem initDict_row {cfg : Config Nat Int Int I σ κ} (hnat : cfg.natLabel = id) (n : Nat) (s : Nat → Nat) :
    (initDict cfg (some (.list ((List.range n).map (fun x => (s x : Int)))))).length = n ∧
    ∀ x, x < n → (initDict cfg (some (.list ((List.range n).map (fun x => (s x : Int)))))).get? x = some (s x : Int) := by
  obtain ⟨h1, _, h3⟩ := initDict_list hnat ((List.range n).map (fun x => (s x : Int)))
  rw [List.length_map, List.length_range] at h1 h3
  refine ⟨h1, ?_⟩
  intro x hx
  rw [h3 x hx, List.getElem?_map, List.getElem?_range hx]
  rfl

/-- C121.  Whatever the radius and the rule number, some ring with an odd number of cells and some binary row on it
are not classified: the automaton shown by `evolve` does not settle on the value of the majority. -/
theorem C121_no_rule (r R : Nat) (hR : R < 2 ^ 2 ^ (2 * r + 1)) :
    ∃ n s N, 3 ≤ n ∧ 2 * r + 1 ≤ n ∧ n % 2 = 1 ∧ (∀ x, s x < 2) ∧ cellularAutomaton n r true = .ok N ∧
      ¬ SettlesOn n r (mitchellRule R) s (majorityOf n s) ∧
      ∀ (cfg : Config Nat Int Int I σ κ) (T : Nat), cfg.natLabel = id → 1 ≤ T → cfg.Ordinary (binaryCaRule (R : Int) false) T →
        ∀ (w : World Nat Int σ), w.heap[0]? = some N →
        ∃ res, evolve T cfg (some (.list ((List.range n).map (fun x => (s x : Int))))) 0 w = .ok res ∧
          ShowsRun cfg res T n (fun t x => (localCA n r (mitchellRule R) s t x : Int)) := by
  obtain ⟨n, s, h1, h2, h3, h4, h5⟩ := no_density_rule r (mitchellRule R) (mitchellRule_lt R)
  obtain ⟨N, _, hN, _⟩ := C43_left_to_right n r h1 h2
  refine ⟨n, s, N, h1, h2, h3, h4, hN, h5, ?_⟩
  intro cfg T hnat hT h w hw
  obtain ⟨i1, i2⟩ := initDict_row hnat n s
  exact C121_run n r R h1 h2 hR cfg T hT h N hN 0 w hw _ s (fun x _ => h4 x) i1 i2 T (Nat.le_refl _)

/-- Four timesteps on seven cells with radius 2, memoized: the hypotheses of `C121_run` are met. -/
example : ∃ N res, cellularAutomaton 7 2 true = .ok N ∧
    evolve 4 ({ Ex.base with rule := some (pureRule (binaryCaRule 4294967294 false)), input := .timesteps 4, memoize := true })
      (some (.list [0, 0, 1, 0, 0, 1, 0])) 0 ⟨[N], []⟩ = .ok res ∧
    ShowsRun { Ex.base with rule := some (pureRule (binaryCaRule 4294967294 false)), input := .timesteps 4, memoize := true }
      res 4 7 (fun t x => (localCA 7 2 (mitchellRule 4294967294) (fun x => if x = 2 ∨ x = 5 then 1 else 0) t x : Int)) := by
  obtain ⟨N, _, hN, _⟩ := C43_left_to_right 7 2 (by omega) (by omega)
  obtain ⟨res, h1, h2⟩ := C121_run 7 2 4294967294 (by omega) (by omega) (by decide +kernel)
    { Ex.base with rule := some (pureRule (binaryCaRule 4294967294 false)), input := .timesteps 4, memoize := true } 4 (by omega)
    ⟨rfl, rfl, rfl, rfl, rfl, rfl, rfl⟩ N hN 0 ⟨[N], []⟩ rfl (some (.list [0, 0, 1, 0, 0, 1, 0]))
    (fun x => if x = 2 ∨ x = 5 then 1 else 0) (by decide) (by decide) (by decide) 4 (by omega)
  exact ⟨N, res, hN, h1, h2⟩
example : (List.range 7).map (localCA 7 2 (mitchellRule 0xF0F0F0F0) (fun x => if x = 2 then 1 else 0) 1) = [1, 1, 0, 1, 1, 1, 1] ∧
    mitchellRule 1 [1, 1, 1] = 1 ∧ mitchellRule 128 [0, 0, 0] = 1 ∧ mitchellRule 2 [1, 1, 0] = 1 := by decide +kernel

/-- C121, not only for rule numbers: no local rule whatever classifies the densities of all odd rings. -/
theorem C121_no_local_rule (r : Nat) (f : List Nat → Nat) (hf : ∀ l, f l < 2) :
    ∃ n s, 3 ≤ n ∧ 2 * r + 1 ≤ n ∧ n % 2 = 1 ∧ (∀ x, s x < 2) ∧ ¬ SettlesOn n r f s (majorityOf n s) :=
  no_density_rule r f hf

/-- The rule number of the demo (demos/ca_density_classification/ca_density_classification_demo.py:12). -/
def mitchellNumber : Nat := 6667021275756174439087127638698866559

/-- A row of 149 cells with 74 ones. -/
def fooledRow (x : Nat) : Nat := if x % 8 = 1 ∨ x % 8 = 4 ∨ x % 8 = 5 ∨ x % 8 = 6 then 1 else 0

/-- A row of 149 cells with 75 ones. -/
def fooledRow' (x : Nat) : Nat := if x % 6 = 1 ∨ x % 6 = 3 ∨ x % 6 = 4 then 1 else 0

omit [DecidableEq κ] in
theorem showsRun_values {cfg : Config Nat Int Int I σ κ} {res : Evolved Nat Int Int σ} {T n : Nat} {f g : Nat → Nat → Int}
    (h : ShowsRun cfg res T n f) (hfg : ∀ t x, x < n → f t x = g t x) : ShowsRun cfg res T n g := by
  refine ⟨h.1, ?_⟩
  intro t ht
  obtain ⟨d, d1, d2, d3⟩ := h.2 t ht
  refine ⟨d, d1, d2, ?_⟩
  intro x hx
  rw [d3 x hx, hfg t x hx]

theorem fooled_lists :
    Nat.repeat (listStep 3 (mitchellRule mitchellNumber)) 3 ((List.range 149).map fooledRow) = List.replicate 149 1 ∧
    Nat.repeat (listStep 3 (mitchellRule mitchellNumber)) 4 ((List.range 149).map fooledRow') = List.replicate 149 0 := by
  decide +kernel

theorem localCA_row {n r : Nat} {f : List Nat → Nat} (hn : 0 < n) (s : Nat → Nat) (k : Nat) {m : Nat}
    (h : Nat.repeat (listStep r f) k ((List.range n).map s) = List.replicate n m) :
    ∀ x, x < n → localCA n r f s k x = m := by
  intro x hx
  have hc : ∀ x, x < n → s x = ((List.range n).map s)[x]?.getD 0 := by
    intro x hx
    rw [List.getElem?_map, List.getElem?_range hx]; rfl
  rw [localCA_congr hn hc k x hx, localCA_list hn k _ (by simp) x hx, h, List.getElem?_replicate_of_lt hx]
  rfl

/-- C121, the demo (149 cells, radius 3, the rule found by a genetic algorithm): the two uniform rows stay as they
are, but a row with 74 ones of 149 becomes all 1 after three timesteps, and a row with 75 ones becomes all 0 after
four. -/
theorem C121_demo_fooled (N : Net Nat Int) (hN : cellularAutomaton 149 3 true = .ok N)
    (cfg : Config Nat Int Int I σ κ) (hnat : cfg.natLabel = id) (T : Nat) (hT : 1 ≤ T)
    (h : cfg.Ordinary (binaryCaRule (mitchellNumber : Int) false) T) (w : World Nat Int σ) (hw : w.heap[0]? = some N) :
    (∃ res f, evolve T cfg (some (.list ((List.range 149).map (fun x => (fooledRow x : Int))))) 0 w = .ok res ∧
      ShowsRun cfg res T 149 f ∧ majorityOf 149 fooledRow = 0 ∧ ∀ t, 3 ≤ t → ∀ x, x < 149 → f t x = 1) ∧
    (∃ res f, evolve T cfg (some (.list ((List.range 149).map (fun x => (fooledRow' x : Int))))) 0 w = .ok res ∧
      ShowsRun cfg res T 149 f ∧ majorityOf 149 fooledRow' = 1 ∧ ∀ t, 4 ≤ t → ∀ x, x < 149 → f t x = 0) ∧
    (∀ m, m < 2 → ∃ res, evolve T cfg (some (.list ((List.range 149).map (fun _ => ((m : Nat) : Int))))) 0 w = .ok res ∧
      ShowsRun cfg res T 149 (fun _ _ => (m : Int))) := by
  have hfix : ∀ m, m < 2 → mitchellRule mitchellNumber (List.replicate (2 * 3 + 1) m) = m := by decide +kernel
  have hrun : ∀ s : Nat → Nat, (∀ x, s x < 2) → ∃ res,
      evolve T cfg (some (.list ((List.range 149).map (fun x => (s x : Int))))) 0 w = .ok res ∧
      ShowsRun cfg res T 149 (fun t x => (localCA 149 3 (mitchellRule mitchellNumber) s t x : Int)) := by
    intro s hs
    obtain ⟨i1, i2⟩ := initDict_row hnat 149 s
    exact C121_run 149 3 mitchellNumber (by omega) (by omega) (by decide +kernel) cfg T hT h N hN 0 w hw _ s
      (fun x _ => hs x) i1 i2 T (Nat.le_refl _)
  refine ⟨?_, ?_, ?_⟩
  · obtain ⟨res, e1, e2⟩ := hrun fooledRow (by intro x; unfold fooledRow; split <;> omega)
    refine ⟨res, _, e1, e2, by decide +kernel, ?_⟩
    intro t ht x hx
    have := localCA_stays (by omega) (hfix 1 (by omega)) (localCA_row (by omega) fooledRow 3 fooled_lists.1) t ht x hx
    rw [this]; rfl
  · obtain ⟨res, e1, e2⟩ := hrun fooledRow' (by intro x; unfold fooledRow'; split <;> omega)
    refine ⟨res, _, e1, e2, by decide +kernel, ?_⟩
    intro t ht x hx
    have := localCA_stays (by omega) (hfix 0 (by omega)) (localCA_row (by omega) fooledRow' 4 fooled_lists.2) t ht x hx
    rw [this]; rfl
  · intro m hm
    obtain ⟨res, e1, e2⟩ := hrun (fun _ => m) (fun _ => hm)
    refine ⟨res, e1, showsRun_values e2 ?_⟩
    intro t x hx
    show ((localCA _ _ _ _ t x : Nat) : Int) = _
    rw [localCA_stays (by omega) (hfix m hm) (t0 := 0) (s := fun _ => m) (fun _ _ => rfl) t (Nat.zero_le _) x hx]

/-- A call as in the demo, ten timesteps: the hypotheses of `C121_demo_fooled` are met. -/
example : ∃ N res, cellularAutomaton 149 3 true = .ok N ∧
    evolve 10 ({ Ex.base with rule := some (pureRule (binaryCaRule (mitchellNumber : Int) false)), input := .timesteps 10 })
      (some (.list ((List.range 149).map (fun x => (fooledRow x : Int))))) 0 ⟨[N], []⟩ = .ok res := by
  obtain ⟨N, _, hN, _⟩ := C43_left_to_right 149 3 (by omega) (by omega)
  obtain ⟨⟨res, _, h1, _⟩, _⟩ := C121_demo_fooled N hN
    { Ex.base with rule := some (pureRule (binaryCaRule (mitchellNumber : Int) false)), input := .timesteps 10 } rfl 10
    (by omega) ⟨rfl, rfl, rfl, rfl, rfl, rfl, rfl⟩ ⟨[N], []⟩ rfl
  exact ⟨N, res, hN, h1⟩
example : onesCount 149 fooledRow = 74 ∧ onesCount 149 fooledRow' = 75 := by decide +kernel

end
end Verif
