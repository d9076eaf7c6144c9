import Verif.Props.Cycles
import Verif.Props.EndToEnd
/-! # Property C158: Gardens of Eden -/

namespace Verif
open Spec
section
variable {L V : Type} [DecidableEq V]

/-- On finitely many rows, an injective map is onto. -/
theorem rows_onto (ls : List L) (vals : List V) (H : (L → V) → L → V) (hmem : ∀ p, (∀ x ∈ ls, p x ∈ vals) → ∀ x ∈ ls, H p x ∈ vals)
    (hinj : ∀ p q, (∀ x ∈ ls, p x ∈ vals) → (∀ x ∈ ls, q x ∈ vals) → (∀ x ∈ ls, H p x = H q x) → ∀ x ∈ ls, p x = q x)
    (s : L → V) (hs : ∀ x ∈ ls, s x ∈ vals) : ∃ p, (∀ x ∈ ls, p x ∈ vals) ∧ ∀ x ∈ ls, H p x = s x := by
  have hit : ∀ n, ∀ x ∈ ls, (Nat.rec s (fun _ p => H p) n : L → V) x ∈ vals := by
    intro n
    induction n with
    | zero => exact hs
    | succ n ih => exact hmem _ ih
  obtain ⟨i, j, hij, _, he⟩ := rows_repeat ls vals (fun n => (Nat.rec s (fun _ p => H p) n : L → V)) hit
  have back : ∀ k, k ≤ i → ∀ x ∈ ls, (Nat.rec s (fun _ p => H p) (i - k) : L → V) x = (Nat.rec s (fun _ p => H p) (j - k) : L → V) x := by
    intro k
    induction k with
    | zero => exact fun _ => he
    | succ k ih =>
      intro hk
      refine hinj _ _ (hit _) (hit _) fun x hx => ?_
      have := ih (by omega) x hx
      rw [show i - k = i - (k + 1) + 1 by omega, show j - k = j - (k + 1) + 1 by omega] at this
      exact this
  have b0 := back i (Nat.le_refl _)
  rw [Nat.sub_self, show j - i = (j - i - 1) + 1 by omega] at b0
  exact ⟨_, hit (j - i - 1), fun x hx => (b0 x hx).symm⟩

/-- Some row has no predecessor if and only if two different rows have the same successor. -/
theorem eden_rows (ls : List L) (vals : List V) (F : (L → V) → L → V) (hmem : ∀ p, (∀ x ∈ ls, p x ∈ vals) → ∀ x ∈ ls, F p x ∈ vals)
    (hloc : ∀ p q, (∀ x ∈ ls, p x = q x) → ∀ x ∈ ls, F p x = F q x) :
    (∃ s : L → V, (∀ x ∈ ls, s x ∈ vals) ∧ ∀ p : L → V, (∀ x ∈ ls, p x ∈ vals) → ∃ x ∈ ls, F p x ≠ s x) ↔
    ∃ p q : L → V, (∀ x ∈ ls, p x ∈ vals) ∧ (∀ x ∈ ls, q x ∈ vals) ∧ (∃ x ∈ ls, p x ≠ q x) ∧ ∀ x ∈ ls, F p x = F q x := by
  constructor
  · rintro ⟨s, hs, hno⟩
    apply Classical.byContradiction
    intro hn
    obtain ⟨p, hp, hps⟩ := rows_onto ls vals F hmem (by
      intro p q hp hq he x hx
      apply Classical.byContradiction
      intro hne
      exact hn ⟨p, q, hp, hq, ⟨x, hx, hne⟩, he⟩) s hs
    obtain ⟨x, hx, hne⟩ := hno p hp
    exact hne (hps x hx)
  · rintro ⟨p, q, hp, hq, ⟨x0, hx0, hne⟩, he⟩
    apply Classical.byContradiction
    intro hn
    have onto : ∀ s : L → V, ∃ p' : L → V, (∀ x ∈ ls, s x ∈ vals) → (∀ x ∈ ls, p' x ∈ vals) ∧ ∀ x ∈ ls, F p' x = s x := by
      intro s
      apply Classical.byContradiction
      intro hno
      have hall : ∀ p', ¬ ((∀ x ∈ ls, s x ∈ vals) → (∀ x ∈ ls, p' x ∈ vals) ∧ ∀ x ∈ ls, F p' x = s x) := fun p' h => hno ⟨p', h⟩
      have hs : ∀ x ∈ ls, s x ∈ vals := Classical.byContradiction fun h => hall s (fun h' => absurd h' h)
      refine hn ⟨s, hs, fun p' hp' => Classical.byContradiction fun hx => hall p' fun _ => ⟨hp', fun x hxl => ?_⟩⟩
      exact Classical.byContradiction fun h => hx ⟨x, hxl, h⟩
    obtain ⟨h0, h0s⟩ := Classical.axiomOfChoice onto
    have hcanon : ∀ s : L → V, (∀ x ∈ ls, s x ∈ vals) → ∀ x ∈ ls, (open Classical in (if x ∈ ls then s x else p x0)) ∈ vals := by
      intro s hs x hx
      rw [if_pos hx]
      exact hs x hx
    let h : (L → V) → L → V := fun s => h0 (fun x => open Classical in if x ∈ ls then s x else p x0)
    have hrow : ∀ s, (∀ x ∈ ls, s x ∈ vals) → ∀ x ∈ ls, h s x ∈ vals := fun s hs => (h0s _ (hcanon s hs)).1
    have hF : ∀ s, (∀ x ∈ ls, s x ∈ vals) → ∀ x ∈ ls, F (h s) x = s x := by
      intro s hs x hx
      have := (h0s _ (hcanon s hs)).2 x hx
      rw [if_pos hx] at this
      exact this
    have hcong : ∀ s s', (∀ x ∈ ls, s x = s' x) → h s = h s' := by
      intro s s' hss
      show h0 _ = h0 _
      congr 1
      funext x
      by_cases hx : x ∈ ls
      · rw [if_pos hx, if_pos hx, hss x hx]
      · rw [if_neg hx, if_neg hx]
    have hback : ∀ y, (∀ x ∈ ls, y x ∈ vals) → ∀ x ∈ ls, y x = h (F y) x := by
      intro y hy
      obtain ⟨z, hz, hzy⟩ := rows_onto ls vals h hrow (by
        intro a b ha hb hab x hx
        rw [← hF a ha x hx, ← hF b hb x hx]
        exact hloc _ _ hab x hx) y hy
      have hFy : ∀ x ∈ ls, F y x = z x := by
        intro x hx
        rw [← hF z hz x hx]
        exact hloc _ _ (fun u hu => (hzy u hu).symm) x hx
      intro x hx
      rw [hcong _ _ hFy]
      exact (hzy x hx).symm
    apply hne
    rw [hback p hp x0 hx0, hback q hq x0 hx0, hcong _ _ he]

end

section
variable {L A V I σ κ : Type} [DecidableEq L] [DecidableEq V] [DecidableEq κ]

omit [DecidableEq L] in
/-- C158: on any network and for any local rule on finitely many states, some state of the network has no predecessor if and only if two
different states of the network have the same successor. -/
theorem C158_eden (ls : List L) (nb : L → List L) (hc : ∀ x ∈ ls, ∀ y ∈ nb x, y ∈ ls) (g : L → V → List V → V) (vals : List V)
    (hg : ∀ x ∈ ls, ∀ v ∈ vals, ∀ l : List V, l.length = (nb x).length → (∀ u ∈ l, u ∈ vals) → g x v l ∈ vals) :
    (∃ s : L → V, (∀ x ∈ ls, s x ∈ vals) ∧ ∀ p : L → V, (∀ x ∈ ls, p x ∈ vals) → ∃ x ∈ ls, g x (p x) ((nb x).map p) ≠ s x) ↔
    ∃ p q : L → V, (∀ x ∈ ls, p x ∈ vals) ∧ (∀ x ∈ ls, q x ∈ vals) ∧ (∃ x ∈ ls, p x ≠ q x) ∧
      ∀ x ∈ ls, g x (p x) ((nb x).map p) = g x (q x) ((nb x).map q) := by
  refine eden_rows ls vals (fun p x => g x (p x) ((nb x).map p)) ?_ ?_
  · intro p hp x hx
    refine hg x hx _ (hp x hx) _ (by rw [List.length_map]) ?_
    intro u hu
    obtain ⟨y, hy, rfl⟩ := List.mem_map.1 hu
    exact hp y (hc x hx y hy)
  · intro p q he x hx
    show g x (p x) ((nb x).map p) = g x (q x) ((nb x).map q)
    rw [he x hx, List.map_congr_left fun y hy => he y (hc x hx y hy)]

/-- C158: if two different states of the network have the same successor there is a state of the network that no call of `evolve` ever shows
but as its initial conditions. -/
theorem C158_evolve (N : Net L A) (nb : L → List L) (hne : N.labels ≠ []) (hnd : N.labels.Nodup)
    (hnb : ∀ x ∈ N.labels, specNbrs N x = some (nb x) ∧ ∀ y ∈ nb x, y ∈ N.labels) (g : L → V → List V → V)
    (G : NodeCtx L A V I → Except Err V) (vals : List V)
    (hg : ∀ x ∈ N.labels, ∀ v ∈ vals, ∀ l : List V, l.length = (nb x).length → (∀ u ∈ l, u ∈ vals) → g x v l ∈ vals)
    (hG : ∀ c, c.node ∈ N.labels → c.current ∈ vals → (∀ u ∈ c.neighbourActs, u ∈ vals) → c.neighbourActs.length = (nb c.node).length →
      G c = .ok (g c.node c.current c.neighbourActs))
    (p q : L → V) (hp : ∀ x ∈ N.labels, p x ∈ vals) (hq : ∀ x ∈ N.labels, q x ∈ vals) (hpq : ∃ x ∈ N.labels, p x ≠ q x)
    (hsucc : ∀ x ∈ N.labels, g x (p x) ((nb x).map p) = g x (q x) ((nb x).map q)) :
    ∃ e : L → V, (∀ x ∈ N.labels, e x ∈ vals) ∧
      ∀ (cfg : Config L A V I σ κ) (T : Nat) (_ : 1 ≤ T) (_ : cfg.Ordinary G T) (_ : cfg.memoize = false)
        (init : Option (Conds L V)) (_ : (initDict cfg init).length = N.labels.length)
        (_ : ∀ x ∈ N.labels, ∃ v ∈ vals, (initDict cfg init).get? x = some v) (r : Nat) (w : World L A σ) (_ : w.heap[r]? = some N) (fuel : Nat)
        (_ : T ≤ fuel), ∃ res, evolve fuel cfg init r w = .ok res ∧ res.states.length = T ∧
          ∀ t, 1 ≤ t → t < T → ∃ d x, res.acts cfg t = some d ∧ x ∈ N.labels ∧ d.get? x ≠ some (e x) := by
  obtain ⟨e, he, hno⟩ := (C158_eden N.labels nb (fun x hx => (hnb x hx).2) g vals hg).2 ⟨p, q, hp, hq, hpq, hsucc⟩
  refine ⟨e, he, ?_⟩
  intro cfg T hT h hm init hlen hinit r w hr fuel hfu
  have hinit' : ∀ x ∈ N.labels, (initDict cfg init).get? x = some (((initDict cfg init).get? x).getD (e x)) ∧
      ((initDict cfg init).get? x).getD (e x) ∈ vals := by
    intro x hx
    obtain ⟨v, hv, hv'⟩ := hinit x hx
    rw [hv']
    exact ⟨rfl, hv⟩
  have hs := fun x hx => (hinit' x hx).2
  obtain ⟨res, e1, e2, e3⟩ := C140_run N nb hne hnd hnb g G vals (fun x => ((initDict cfg init).get? x).getD (e x)) hs hg hG cfg T hT h hm
    init hlen (fun x hx => (hinit' x hx).1) r w hr fuel hfu
  refine ⟨res, e1, e2, ?_⟩
  intro t h1 ht
  obtain ⟨d, d1, _, d3⟩ := e3 t ht
  obtain ⟨x, hx, hne'⟩ := hno (localRun nb g _ (t - 1)) (localRun_mem (fun x hx => (hnb x hx).2) hs hg (t - 1))
  refine ⟨d, x, d1, hx, ?_⟩
  rw [d3 x hx, show t = t - 1 + 1 by omega, localRun]
  intro h'
  exact hne' (Option.some_inj.1 h')

/-- C158: on every torus from 3 × 3 on there is a pattern that the Game of Life never reaches: no call of `evolve` with
`game_of_life_rule`, with or without memoization and from whatever pattern, shows it in any state but the first. -/
theorem C158_life (rows cols : Nat) (hrw : 3 ≤ rows) (hcl : 3 ≤ cols) :
    ∃ e : Nat → Nat → Bool, ∀ (cfg : Config Nat Int Int I σ κ) (T : Nat) (_ : 1 ≤ T) (_ : cfg.Ordinary (orNone gameOfLife?) T) (N : Net Nat Int)
      (_ : cellularAutomaton2d rows cols 1 "Moore" true = .ok N) (r : Nat) (w : World Nat Int σ) (_ : w.heap[r]? = some N)
      (init : Option (Conds Nat Int)) (s : Nat → Nat → Bool) (_ : (initDict cfg init).length = rows * cols)
      (_ : ∀ a b, a < rows → b < cols → (initDict cfg init).get? (a * cols + b) = some (if s a b then 1 else 0))
      (fuel : Nat) (_ : T ≤ fuel), ∃ res, evolve fuel cfg init r w = .ok res ∧ res.states.length = T ∧
        ∀ t, 1 ≤ t → t < T → ∃ d a b, res.acts cfg t = some d ∧ a < rows ∧ b < cols ∧
          d.get? (a * cols + b) ≠ some (if e a b then 1 else 0) := by
  have hls : ∀ x : Nat × Nat, x ∈ (List.range rows).flatMap (fun a => (List.range cols).map (fun b => (a, b))) ↔ x.1 < rows ∧ x.2 < cols := by
    intro x
    rw [List.mem_flatMap]
    constructor
    · rintro ⟨a, ha, hx⟩
      obtain ⟨b, hb, rfl⟩ := List.mem_map.1 hx
      exact ⟨List.mem_range.1 ha, List.mem_range.1 hb⟩
    · rintro ⟨h1, h2⟩
      exact ⟨x.1, List.mem_range.2 h1, List.mem_map.2 ⟨x.2, List.mem_range.2 h2, rfl⟩⟩
  have hbool : ∀ b : Bool, b ∈ [false, true] := by decide
  obtain ⟨e, _, hno⟩ := (C158_eden ((List.range rows).flatMap (fun a => (List.range cols).map (fun b => (a, b))))
    (fun x => around rows cols x.1 x.2) (by
      intro x hx y hy
      have hx := (hls x).1 hx
      exact (hls y).2 (around_lt hrw hcl hx.1 hx.2 y (List.mem_cons_of_mem _ hy))) (fun _ v l => conway v (l.countP id)) [false, true]
    (fun _ _ _ _ _ _ _ => hbool _)).2 ⟨fun _ => false, fun x => x == (0, 0), fun _ _ => hbool _, fun _ _ => hbool _,
      ⟨(0, 0), (hls _).2 ⟨by show 0 < rows; omega, by show 0 < cols; omega⟩, by decide⟩, by
      intro x hx
      have hx := (hls x).1 hx
      have hc0 : ∀ (v : Bool) n, n ≤ 1 → conway v n = false := by
        intro v n hn
        unfold conway
        have : n = 0 ∨ n = 1 := by omega
        rcases this with rfl | rfl <;> cases v <;> rfl
      show conway _ _ = conway _ _
      rw [hc0 _ _ (by rw [List.countP_map]; simp [Function.comp_def]), hc0]
      rw [List.countP_map]
      have hnd := (List.nodup_cons.1 (around_nodup hrw hcl hx.1 hx.2)).2
      have := List.nodup_iff_count.1 hnd (0, 0)
      exact this⟩
  refine ⟨fun a b => e (a, b), ?_⟩
  intro cfg T hT h N hN r w hr init s hlen h0 fuel hf
  obtain ⟨res, e1, e2, e3⟩ := C47_game_of_life rows cols hrw hcl cfg T hT h N hN r w hr init s hlen h0 fuel hf
  refine ⟨res, e1, e2, ?_⟩
  intro t h1 ht
  obtain ⟨d, d1, _, d3⟩ := e3 t ht
  obtain ⟨x, hx, hne⟩ := hno (fun q => life rows cols s (t - 1) q.1 q.2) (fun _ _ => hbool _)
  have hx := (hls x).1 hx
  refine ⟨d, x.1, x.2, d1, hx.1, hx.2, ?_⟩
  have hlt : x.1 * cols + x.2 < rows * cols := by
    have := Nat.mul_le_mul_right cols (Nat.succ_le_of_lt hx.1)
    rw [Nat.succ_mul] at this
    omega
  have q1 : (x.1 * cols + x.2) / cols = x.1 := by
    rw [Nat.mul_comm, Nat.mul_add_div (by omega), Nat.div_eq_of_lt hx.2, Nat.add_zero]
  have q2 : (x.1 * cols + x.2) % cols = x.2 := by rw [Nat.mul_comm, Nat.mul_add_mod, Nat.mod_eq_of_lt hx.2]
  have hval : life rows cols s t x.1 x.2 = conway (life rows cols s (t - 1) x.1 x.2)
      (((around rows cols x.1 x.2).map (fun q => life rows cols s (t - 1) q.1 q.2)).countP id) := by
    rw [List.countP_map]
    have ht' : t = t - 1 + 1 := by omega
    rw [ht', life]
    rfl
  rw [d3 _ hlt]
  show some (if life rows cols s t ((x.1 * cols + x.2) / cols) ((x.1 * cols + x.2) % cols) then (1 : Int) else 0) ≠
    some (if e (x.1, x.2) then 1 else 0)
  rw [q1, q2, hval]
  intro h'
  apply hne
  have h'' := Option.some_inj.1 h'
  show conway _ _ = e (x.1, x.2)
  revert h''
  cases conway (life rows cols s (t - 1) x.1 x.2)
      (((around rows cols x.1 x.2).map (fun q => life rows cols s (t - 1) q.1 q.2)).countP id) <;>
    cases e (x.1, x.2) <;> simp

/-- C158: Wireworld on any network with at least one node: there is a state that never arises. -/
theorem C158_wireworld (N : Net L A) (nb : L → List L) (hne : N.labels ≠ []) (hnd : N.labels.Nodup)
    (hnb : ∀ x ∈ N.labels, specNbrs N x = some (nb x) ∧ ∀ y ∈ nb x, y ∈ N.labels) :
    ∃ e : L → Int, (∀ x ∈ N.labels, e x ∈ [0, 1, 2, 3]) ∧
      ∀ (cfg : Config L A Int I σ κ) (T : Nat) (_ : 1 ≤ T) (_ : cfg.Ordinary (orNone wireworld?) T) (_ : cfg.memoize = false)
        (init : Option (Conds L Int)) (_ : (initDict cfg init).length = N.labels.length)
        (_ : ∀ x ∈ N.labels, ∃ v ∈ [0, 1, 2, 3], (initDict cfg init).get? x = some v) (r : Nat) (w : World L A σ) (_ : w.heap[r]? = some N)
        (fuel : Nat) (_ : T ≤ fuel), ∃ res, evolve fuel cfg init r w = .ok res ∧ res.states.length = T ∧
          ∀ t, 1 ≤ t → t < T → ∃ d x, res.acts cfg t = some d ∧ x ∈ N.labels ∧ d.get? x ≠ some (e x) := by
  obtain ⟨x0, hx0⟩ := List.exists_mem_of_ne_nil _ hne
  refine C158_evolve N nb hne hnd hnb
    (fun _ v l => if v = 0 then 0 else if v = 1 then 2 else if v = 2 then 3 else if l.count 1 = 1 ∨ l.count 1 = 2 then 1 else 3) _ [0, 1, 2, 3]
    ?_ ?_ (fun _ => 2) (fun _ => 3) (fun _ _ => by decide) (fun _ _ => by decide) ⟨x0, hx0, by decide⟩ ?_
  · intro x _ v _ l _ _
    show (if v = 0 then (0 : Int) else _) ∈ _
    by_cases h0 : v = 0
    · simp [h0]
    · by_cases h1 : v = 1
      · simp [h1]
      · by_cases h2 : v = 2
        · simp [h2]
        · by_cases hc : l.count 1 = 1 ∨ l.count 1 = 2
          · simp [h0, h1, h2, hc]
          · simp [h0, h1, h2, hc]
  · intro c _ hcur _ _
    simp only [List.mem_cons, List.not_mem_nil, or_false] at hcur
    unfold orNone wireworld?
    rcases hcur with h | h | h | h
    · simp [h]
    · simp [h]
    · simp [h]
    · by_cases hc : c.neighbourActs.count 1 = 1 ∨ c.neighbourActs.count 1 = 2
      · simp [h, hc]
      · simp [h, hc]
  · intro x _
    have hz : ((nb x).map (fun _ => (3 : Int))).count 1 = 0 := by
      rw [List.count_eq_zero]
      intro hm
      obtain ⟨y, _, hy⟩ := List.mem_map.1 hm
      omega
    simp [hz]

end

/-- A rule with and one without Gardens of Eden on two nodes that look at each other: taking the smaller of the two values, and copying. -/
example : ∃ s : Nat → Nat, (∀ x ∈ [0, 1], s x ∈ [0, 1]) ∧ ∀ p : Nat → Nat, (∀ x ∈ [0, 1], p x ∈ [0, 1]) →
    ∃ x ∈ [0, 1], min (p x) (([1 - x].map p).headD 0) ≠ s x :=
  (C158_eden [0, 1] (fun x => [1 - x]) (by decide) (fun _ v l => min v (l.headD 0)) [0, 1] (by
    intro x _ v hv l _ hl
    have hd : l.headD 0 ∈ [0, 1] := by
      cases l with
      | nil => decide
      | cons u _ => exact hl u (List.mem_cons_self ..)
    simp only [List.mem_cons, List.not_mem_nil, or_false] at hv hd ⊢
    omega)).2 ⟨fun _ => 0, fun x => x, by decide, by decide, by decide, by decide⟩
example : ¬ ∃ s : Nat → Nat, (∀ x ∈ [0, 1], s x ∈ [0, 1]) ∧ ∀ p : Nat → Nat, (∀ x ∈ [0, 1], p x ∈ [0, 1]) →
    ∃ x ∈ [0, 1], ([1 - x].map p).headD 0 ≠ s x := by
  rintro ⟨s, hs, h⟩
  obtain ⟨x, hx, hne⟩ := h (fun x => s (1 - x)) (by
    intro x hx
    exact hs _ (by simp only [List.mem_cons, List.not_mem_nil, or_false] at hx ⊢; omega))
  apply hne
  simp only [List.mem_cons, List.not_mem_nil, or_false] at hx
  rcases hx with rfl | rfl <;> rfl

/-- The hypotheses about the network are met by the two nodes of C140. -/
example : ∃ e : Nat → Int, ∀ x ∈ Ex.copyNet.labels, e x ∈ [0, 1, 2, 3] := by
  obtain ⟨e, he, _⟩ := C158_wireworld (I := Unit) (σ := Unit) (κ := Unit) Ex.copyNet (fun x => [1 - x]) (by decide) (by decide) (by decide)
  exact ⟨e, he⟩

/-- The 60 × 60 torus of the demos. -/
example : ∃ e : Nat → Nat → Bool, ∀ (N : Net Nat Int), cellularAutomaton2d 60 60 1 "Moore" true = .ok N → ∀ s : Nat → Nat → Bool,
    ∃ res, evolve 61 ({ Ex.base with rule := some (pureRule (orNone gameOfLife?)), input := .timesteps 61 })
        (some (.list ((List.range (60 * 60)).map (fun x => if s (x / 60) (x % 60) then 1 else 0)))) 0 ⟨[N], []⟩ = .ok res ∧
      ∃ d a b, res.acts { Ex.base with rule := some (pureRule (orNone gameOfLife?)), input := .timesteps 61 } 60 = some d ∧ a < 60 ∧ b < 60 ∧
        d.get? (a * 60 + b) ≠ some (if e a b then 1 else 0) := by
  obtain ⟨e, he⟩ := C158_life (I := Int) (σ := List Int) (κ := Unit) 60 60 (by omega) (by omega)
  refine ⟨e, fun N hN s => ?_⟩
  obtain ⟨i1, _, i3⟩ := initDict_list (cfg := { Ex.base with rule := some (pureRule (orNone gameOfLife?)), input := .timesteps 61 }) rfl
    ((List.range (60 * 60)).map (fun x => if s (x / 60) (x % 60) then (1 : Int) else 0))
  obtain ⟨res, h1, _, h3⟩ := he { Ex.base with rule := some (pureRule (orNone gameOfLife?)), input := .timesteps 61 } 61 (by omega)
    ⟨rfl, rfl, rfl, rfl, rfl, rfl, rfl⟩ N hN 0 ⟨[N], []⟩ rfl
    (some (.list ((List.range (60 * 60)).map (fun x => if s (x / 60) (x % 60) then (1 : Int) else 0)))) s
    (by rw [i1, List.length_map, List.length_range]) (by
      intro a b ha hb
      have hlt : a * 60 + b < 60 * 60 := by omega
      rw [i3 _ (by rw [List.length_map, List.length_range]; exact hlt), List.getElem?_map, List.getElem?_range hlt]
      simp only [Option.map_some]
      rw [show (a * 60 + b) / 60 = a by omega, show (a * 60 + b) % 60 = b by omega]) 61 (by omega)
  exact ⟨res, h1, h3 60 (by omega) (by omega)⟩

end Verif
