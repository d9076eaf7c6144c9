import Mathlib.Analysis.SpecialFunctions.Trigonometric.DerivHyp
import Verif.Model.Results
import Verif.Props.TSP
import Verif.Props.Wolfram
/-! # Properties C133 and C134: reading the results of the TSP network and of Wolfram models -/

namespace Verif

/-! ## C133 -/

section
variable {R E P : Type}

/-- C133.  The permutation matrix has `n` rows of `n` entries; the entry of point `p` and position `c` is `V` of the activity of node
`p * n + c` in the last state, which `C62_coordinates` says is the node of `p` and `c`. -/
theorem C133_matrix (V : R → E) (n : Nat) (activities : List (List R)) (row : List R) (hl : activities.getLast? = some row)
    (hrow : row.length = n * n) :
    ∃ M, permutationMatrix V n activities = .ok M ∧ M.length = n ∧ (∀ r ∈ M, r.length = n) ∧
      ∀ p c, p < n → c < n → ((M[p]?).bind (fun r => r[c]?)) = (row[p * n + c]?).map V := by
  refine ⟨(List.range n).map (fun a => ((row.drop (a * n)).take n).map V), ?_, by simp, ?_, ?_⟩
  · unfold permutationMatrix
    rw [hl]
    simp only
    rw [if_pos hrow]
  · intro r hr
    obtain ⟨a, ha, rfl⟩ := List.mem_map.1 hr
    have ha := List.mem_range.1 ha
    have h1 : a * n + n ≤ n * n := by
      have := Nat.mul_le_mul_right n (show a + 1 ≤ n from ha)
      rwa [Nat.succ_mul] at this
    rw [List.length_map, List.length_take, List.length_drop, hrow]
    omega
  · intro p c hp hc
    rw [List.getElem?_map, List.getElem?_range hp]
    show (((row.drop (p * n)).take n).map V)[c]? = _
    rw [List.getElem?_map, List.getElem?_take, if_pos hc, List.getElem?_drop]

/-- C133, the other branches: without states or with another number of activities it raises. -/
theorem C133_raises (V : R → E) (n : Nat) (activities : List (List R)) :
    (permutationMatrix V n activities = .error .indexError ↔ activities = []) ∧
    (permutationMatrix V n activities = .error .valueError ↔ ∃ row, activities.getLast? = some row ∧ row.length ≠ n * n) := by
  unfold permutationMatrix
  cases h : activities.getLast? with
  | none => simp [List.getLast?_eq_none_iff.1 h]
  | some row =>
    have hne : activities ≠ [] := by
      intro h0
      rw [h0] at h
      cases h
    by_cases hr : row.length = n * n
    · simp [hr, hne]
    · simp [hr, hne]

theorem argmax_map (leP : P → P → Bool) (leE : E → E → Bool) (V : P → E) (hV : ∀ x y, leE (V x) (V y) = leP x y) (row : List P) :
    argmax leE (row.map V) = argmax leP row := by
  cases row with
  | nil => rfl
  | cons v vs =>
    have key : ∀ (vs : List P) (i j : Nat) (m : P),
        ((vs.map V).foldl (fun (s : Nat × E × Nat) x => if leE x s.2.1 then (s.1, s.2.1, s.2.2 + 1) else (s.2.2, x, s.2.2 + 1)) (i, V m, j)) =
        ((vs.foldl (fun (s : Nat × P × Nat) x => if leP x s.2.1 then (s.1, s.2.1, s.2.2 + 1) else (s.2.2, x, s.2.2 + 1)) (i, m, j)).1,
          V (vs.foldl (fun (s : Nat × P × Nat) x => if leP x s.2.1 then (s.1, s.2.1, s.2.2 + 1) else (s.2.2, x, s.2.2 + 1)) (i, m, j)).2.1,
          (vs.foldl (fun (s : Nat × P × Nat) x => if leP x s.2.1 then (s.1, s.2.1, s.2.2 + 1) else (s.2.2, x, s.2.2 + 1)) (i, m, j)).2.2) := by
      intro vs
      induction vs with
      | nil => intro i j m; rfl
      | cons x vs ih =>
        intro i j m
        rw [List.map_cons, List.foldl_cons, List.foldl_cons]
        dsimp only
        rw [hV]
        by_cases h : leP x m = true
        · rw [if_pos h, if_pos h]
          exact ih _ _ _
        · rw [if_neg h, if_neg h]
          exact ih _ _ _
    show Except.ok _ = Except.ok _
    rw [key vs 0 1 v]

theorem tourPositions_map (leP : P → P → Bool) (leE : E → E → Bool) (V : P → E) (hV : ∀ x y, leE (V x) (V y) = leP x y) (M : List (List P)) :
    tourPositions leE (M.map (List.map V)) = tourPositions leP M := by
  unfold tourPositions
  rw [List.zipIdx_map, List.foldlM_map]
  congr 1
  funext d p
  unfold claimStep
  show (match argmax leE (p.1.map V) with | .error e => _ | .ok k => _) = _
  rw [argmax_map leP leE V hV]
  rfl

/-- C133.  If `V` keeps the order of the activities, the tour read from the permutation matrix is that read from the activities
themselves: the same exception, or the same graph and length. -/
theorem C133_order [Lean.Grind.CommRing R] (sqrt : R → R) (points : List (Pt R)) (leP : P → P → Bool) (leE : E → E → Bool) (V : P → E)
    (hV : ∀ x y, leE (V x) (V y) = leP x y) (n : Nat) (activities : List (List P)) :
    (permutationMatrix V n activities).bind (tourGraph sqrt leE points) =
      (permutationMatrix (fun u => u) n activities).bind (tourGraph sqrt leP points) := by
  have hmat : permutationMatrix V n activities = (permutationMatrix (fun u => u) n activities).map (List.map (List.map V)) := by
    unfold permutationMatrix
    cases activities.getLast? with
    | none => rfl
    | some row =>
      dsimp only
      by_cases h : row.length = n * n
      · rw [if_pos h, if_pos h]
        show Except.ok _ = Except.ok _
        simp
      · rw [if_neg h, if_neg h]
        rfl
  rw [hmat]
  cases permutationMatrix (fun u => u) n activities with
  | error e => rfl
  | ok M =>
    show tourGraph sqrt leE points (M.map (List.map V)) = tourGraph sqrt leP points M
    unfold tourGraph
    rw [List.length_map, tourPositions_map leP leE V hV]
    cases M with
    | nil => rfl
    | cons r M =>
      simp only [List.map_cons, List.length_map]

end

theorem tanh_le (x y : ℝ) : Real.tanh x ≤ Real.tanh y ↔ x ≤ y := by
  have hx := Real.cosh_pos x
  have hy := Real.cosh_pos y
  rw [Real.tanh_eq_sinh_div_cosh, Real.tanh_eq_sinh_div_cosh, div_le_div_iff₀ hx hy]
  have e : Real.sinh (y - x) = Real.sinh y * Real.cosh x - Real.cosh y * Real.sinh x := Real.sinh_sub y x
  constructor
  · intro h
    have : 0 ≤ Real.sinh (y - x) := by rw [e]; nlinarith
    have := Real.sinh_nonneg_iff.1 this
    linarith
  · intro h
    have : 0 ≤ Real.sinh (y - x) := Real.sinh_nonneg_iff.2 (by linarith)
    rw [e] at this
    nlinarith

open Classical in
/-- C133.  With the library's `_V`, `(1/2) (1 + tanh(u / u_0))`, and `u_0 > 0` the tour is that of the activities themselves. -/
theorem C133_tanh {R : Type} [Lean.Grind.CommRing R] (sqrt : R → R) (points : List (Pt R)) (u0 : ℝ) (hu : 0 < u0) (n : Nat) (activities : List (List ℝ)) :
    (permutationMatrix (fun u => (1 / 2) * (1 + Real.tanh (u / u0))) n activities).bind (tourGraph sqrt (fun x y => decide (x ≤ y)) points) =
      (permutationMatrix (fun u => u) n activities).bind (tourGraph sqrt (fun x y => decide (x ≤ y)) points) := by
  refine C133_order sqrt points _ _ _ (fun x y => ?_) n activities
  have : (1 / 2 * (1 + Real.tanh (x / u0)) ≤ 1 / 2 * (1 + Real.tanh (y / u0))) ↔ x ≤ y := by
    have e := tanh_le (x / u0) (y / u0)
    rw [div_le_div_iff_of_pos_right hu] at e
    rw [← e]
    constructor <;> intro h <;> linarith
  simp only [this]

example : permutationMatrix (fun u : Nat => u * 10) 2 [[0, 0, 0, 0], [1, 5, 7, 2]] = .ok [[10, 50], [70, 20]] ∧
    tourPositions (fun x y : Nat => decide (x ≤ y)) [[1, 5], [7, 2]] = .ok [(1, 0), (0, 1)] := by decide

/-! ## C134 -/

section
variable {V I κ S : Type} [DecidableEq S] [DecidableEq V] [DecidableEq κ]

/-- C134.  For every run of a Wolfram model that does not fail, `to_configurations` returns as many configurations as there are
timesteps: there is a chain of configurations, beginning with the given one, each a rewriting of the one before, and item `t` has exactly
the non-empty relations of the one of timestep `t`. -/
theorem C134_to_configurations {cfg : Config Int WVal V I Int κ} {fuel : List (List Int) → Nat} {lhs out : List (List S)} {T : Nat}
    (hc : WolframRun cfg fuel lhs out T) (hT : 1 ≤ T) {config : List (List Int)} (hne : ∃ r ∈ config, r ≠ []) (init : Option (Conds Int V))
    {r : Nat} {wd : World Int WVal Int} (hr : wd.heap[r]? = some (wInit config).1) (hu : wd.user = (wInit config).2) {f : Nat} (hf : T ≤ f)
    (res : Evolved Int WVal V Int) (he : evolve f cfg init r wd = .ok res) :
    ∃ configs cs : List (List (List Int)), configs.length = T ∧ configs[0]? = some config ∧
      (∀ (t : Nat) (c c' : List (List Int)), configs[t]? = some c → configs[t + 1]? = some c' → Rewrites lhs out c c') ∧
      toConfigurations cfg res = .ok cs ∧ cs.length = T ∧
      ∀ (t : Nat) (c d : List (List Int)), configs[t]? = some c → cs[t]? = some d → d.Perm (c.filter (fun r => decide (r ≠ []))) := by
  have hrun := C57_run hc hT hne init hr hu hf
  rw [he] at hrun
  obtain ⟨configs, h1, h2, h3, h4⟩ := hrun
  have hs : cfg.Safe := wolfram_safe hc
  have hp : cfg.PackOk := fun h => by rw [hc.compression] at h; cases h
  have hlen : res.states.length = T := by
    obtain ⟨t1, t2⟩ := C13_timesteps cfg hs hp T hT hc.input init r wd _ hr
    rw [t1 f hf] at he
    exact (t2 res he).1
  have hget : ∀ t, t < T → ∃ c, configs[t]? = some c := fun t ht => ⟨configs[t], List.getElem?_eq_getElem (by omega)⟩
  have hrel : ∀ c, ∃ rels, wConfig (wInit c).1 = .ok rels ∧ rels.Perm (c.filter (fun r => decide (r ≠ []))) := C55_relations
  refine ⟨configs, (List.range T).map (fun t => Classical.choose (hrel (configs.getD t []))), h1, h2, h3, ?_, by simp, ?_⟩
  · unfold toConfigurations
    rw [hlen]
    refine mapM_total (fun t ht => ?_)
    obtain ⟨c, hc'⟩ := hget t (List.mem_range.1 ht)
    rw [h4 t, hc']
    show wConfig (wInit c).1 = _
    have e : configs.getD t [] = c := by rw [List.getD_eq_getElem?_getD, hc']; rfl
    rw [e]
    exact (Classical.choose_spec (hrel c)).1
  · intro t c d hct hdt
    rw [List.getElem?_map] at hdt
    obtain ⟨t', ht', rfl⟩ := Option.map_eq_some_iff.1 hdt
    have ht : t < T := by
      by_contra h
      rw [List.getElem?_eq_none (by simpa using h)] at ht'
      cases ht'
    rw [List.getElem?_range ht] at ht'
    cases ht'
    have e : configs.getD t [] = c := by rw [List.getD_eq_getElem?_getD, hct]; rfl
    rw [e]
    exact (Classical.choose_spec (hrel c)).2

omit [DecidableEq V] [DecidableEq κ] [DecidableEq S] in
/-- C134.  If some state has no network, it raises. -/
theorem C134_no_network (cfg : Config Int WVal V I Int κ) (res : Evolved Int WVal V Int) (t : Nat) (ht : t < res.states.length)
    (hn : res.net cfg t = none) : ∃ e, toConfigurations cfg res = .error e := by
  unfold toConfigurations
  have key : ∀ l : List Nat, t ∈ l → ∃ e, l.mapM (fun t => stateConfig (res.net cfg t)) = .error e := by
    intro l
    induction l with
    | nil => intro h; cases h
    | cons a l ih =>
      intro h
      rw [List.mapM_cons]
      cases ha : stateConfig (res.net cfg a) with
      | error e => exact ⟨e, rfl⟩
      | ok c =>
        rcases List.mem_cons.1 h with h | h
        · subst h
          rw [hn] at ha
          cases ha
        · obtain ⟨e, he⟩ := ih h
          exact ⟨e, by rw [he]; rfl⟩
  exact key _ (List.mem_range.2 ht)

end

/-- Every run of the rule of `ExWolfram` has configurations. -/
example (T : Nat) (hT : 1 ≤ T) : ∃ res cs, evolve T (ExWolfram.cfg T) none 0 ⟨[(wInit [[1, 1], [1, 1]]).1], (wInit [[1, 1], [1, 1]]).2⟩ = .ok res ∧
    toConfigurations (ExWolfram.cfg T) res = .ok cs ∧ cs.length = T := by
  obtain ⟨res, he⟩ := C57_run_total (ExWolfram.run T) ⟨["x", "z"], by decide, by decide⟩ hT ⟨[1, 1], by decide, by decide⟩ none (r := 0)
    (wd := ⟨[(wInit [[1, 1], [1, 1]]).1], (wInit [[1, 1], [1, 1]]).2⟩) rfl rfl (Nat.le_refl T)
  obtain ⟨_, cs, _, _, _, h1, h2, _⟩ := C134_to_configurations (ExWolfram.run T) hT ⟨[1, 1], by decide, by decide⟩ none rfl rfl (Nat.le_refl T) res he
  exact ⟨res, cs, he, h1, h2⟩

end Verif
