import Verif.Props.Evolution
/-! # C24: input functions, and items of an input list that cannot be indexed by the label of a node -/

namespace Verif
section
variable {L A V I σ κ : Type} [DecidableEq L] [DecidableEq V] [DecidableEq κ]

/-- C24, error branches.  If the first item of the input list is a sequence and the label of the first node is no integer, `evolve` raises
`TypeError`; if the label is an integer outside the sequence (counted from the end when it is negative), it raises `IndexError`.  In both
cases the rule is not involved. -/
theorem C24_bad_item (cfg : Config L A V I σ κ) {rule} (hrule : cfg.rule = some rule) (htop : cfg.topology = none) (hp : cfg.PackOk)
    (xs : List (Option I)) (items : List (Option (Inp I))) (hin : cfg.input = .list (some (.seq xs) :: items))
    (init : Option (Conds L V)) (r : Nat) (w : World L A σ) (n : Net L A) (hr : w.heap[r]? = some n) (hcl : NetClosed n)
    (hlen : (initDict cfg init).length = n.size) (hk : ∀ x ∈ n.labels, x ∈ (initDict cfg init).keys)
    (x : L) (rest : List L) (hx : n.labels = x :: rest) (fuel : Nat) :
    (cfg.labelIdx x = none → evolve (fuel + 1) cfg init r w = .error .typeError) ∧
    (∀ k, cfg.labelIdx x = some k → (k < -(xs.length : Int) ∨ (xs.length : Int) ≤ k) →
      evolve (fuel + 1) cfg init r w = .error .indexError) := by
  have hs : cfg.Safe := Or.inr (fun rule h => by rw [htop] at h; cases h)
  have key : ∀ e, nodeInput cfg.labelIdx (.seq xs) x = .error e → evolve (fuel + 1) cfg init r w = .error e := by
    intro e he
    rw [evolve_error_iff hs hp hr]
    unfold vevolve
    have hc : vcheck cfg (initDict cfg init) n = .ok () := by
      unfold vcheck
      rw [hin]
      simp [hlen]
    rw [hc]
    simp only [vloop, vinit, callInput, hin, List.length_singleton, htop, Option.isSome_none]
    have hpast := pastV_eq cfg (obsHist cfg [(initDict cfg init, n)]) 1 (by omega) (by simp [obsHist])
    have hctx : ∀ past, ∀ m : Option (Dict L (List L)), NmapOk m n →
        mkCtx cfg 1 (.seq xs) (initDict cfg init) n past m x = .error e := by
      intro past m hm
      obtain ⟨ctx, h1⟩ := mkCtx_total (cfg := cfg) (t := 1) (past := past) hm hcl hk (x := x) (by rw [hx]; simp)
      unfold mkCtx at h1 ⊢
      revert h1
      repeat' split
      all_goals simp_all
    have hcomp : ∀ past m memo u, NmapOk m n → computeActs cfg (effectiveKey cfg n) 1 (.seq xs) (initDict cfg init) n past m memo u = .error e := by
      intro past m memo u hm
      unfold computeActs doActivityRule
      rw [hrule, hx]
      simp only [List.foldlM, nodeStep, hctx past m hm, bind, Except.bind]
    have htv : ∀ acts u, topoV cfg 1 acts n [] [] u = .ok (n, u) := by
      intro acts u
      simp [topoV, reqsV, htop]
    have hnm : NmapOk (some (neighbourhoodMap n)) n := Or.inr rfl
    unfold vstep
    simp only [List.length_singleton, hpast]
    cases cfg.order <;> simp [htv, hcomp _ _ _ _ hnm]
  constructor
  · intro h
    exact key _ (by simp [nodeInput, h])
  · intro k h hk
    refine key _ ?_
    simp only [nodeInput, h, pyGet, pyIndex]
    grind

/-- C24 for a callable input: it is given the timestep, and the activities and the network of the timestep before; the rule of a node
receives what it returned, indexed by the label of the node if that is a sequence. -/
theorem C24_input_function (cfg : Config L A V I σ κ) (hs : cfg.Safe) (hp : cfg.PackOk)
    (log : σ → List (NodeCtx L A V I)) (hl : LogSpec cfg log) (init : Option (Conds L V)) (r : Nat)
    (w : World L A σ) (hw : log w.user = []) (n : Net L A) (hr : w.heap[r]? = some n) (fuel : Nat)
    (res : Evolved L A V σ) (h : evolve fuel cfg init r w = .ok res) (f : Nat → Dict L V → Net L A → σ → Except Err (Option (Inp I) × σ))
    (hf : cfg.input = .fn f) :
    ∃ hist, Observes cfg res hist ∧ hist[0]? = some (initDict cfg init, n) ∧
      ∀ c ∈ log res.world.user, ∃ S B inp u u', 1 ≤ c.t ∧ hist[c.t - 1]? = some (S, B) ∧ f c.t S B u = .ok (some inp, u') ∧
        ((∃ i, inp = .scalar i ∧ c.input = some i) ∨ (inp = .timestep ∧ c.input = none) ∨
          ∃ xs k, inp = .seq xs ∧ cfg.labelIdx c.node = some k ∧ pyGet xs k = .ok c.input) := by
  obtain ⟨hist, segs, o1, o2, o3, o4, o5⟩ := contexts_any cfg hs hp log hl init r w hw n hr fuel res h
  refine ⟨hist, o1, o2, ?_⟩
  intro c hc
  rw [o3, List.mem_flatten] at hc
  obtain ⟨seg, hseg, hcs⟩ := hc
  obtain ⟨k, hk⟩ := List.mem_iff_getElem?.1 hseg
  obtain ⟨S, N, inp, s1, s2⟩ := o5 k seg hk
  obtain ⟨x, hx, hsc⟩ := s2 c hcs
  obtain ⟨B, hB, hin⟩ := s1.prev
  have hsi := hsc.input
  rw [hf] at hin
  obtain ⟨u, u', hu⟩ := hin
  rw [hsc.t]
  refine ⟨S, B, inp, u, u', by omega, hB, hu, ?_⟩
  cases inp with
  | timestep => exact Or.inr (Or.inl ⟨rfl, hsi⟩)
  | scalar i => exact Or.inl ⟨i, rfl, hsi⟩
  | seq xs =>
    rw [hsc.node]
    exact Or.inr (Or.inr (by simpa [SpecInput] using hsi))

end

/-- An input function that returns the timestep twice, and then the sequence `[5, 6, 7]`. -/
example :
    let cfg : Config Nat Int Int Int (List Int) Unit := { Ex.base with
      rule := some (fun ctx u => .ok (⟨1, [], []⟩, u ++ [ctx.input.getD 99])),
      input := .fn (fun t _ _ u => .ok (if t < 3 then some (.scalar t) else if t = 3 then some (.seq [some 5, some 6, some 7]) else none, u)) }
    (match evolve 4 cfg (some (.list [1, 0, 0])) 0 ⟨[Ex.tri], []⟩ with
      | .ok res => decide (res.world.user = [1, 1, 1, 2, 2, 2, 5, 6, 7])
      | .error _ => false) = true := by decide

/-- The triangle with labels that are no integers, and with the empty sequence as input. -/
example (f : Option Int) :
    let cfg : Config Nat Int Int Int (List Int) Unit := { Ex.base with
      rule := some (fun _ u => .ok (⟨7, [], []⟩, u)), input := .list [some (.seq [])], labelIdx := fun _ => f }
    evolve 3 cfg (some (.list [1, 0, 0])) 0 ⟨[Ex.tri], []⟩ = .error (if f = none then .typeError else .indexError) := by
  intro cfg
  have h := C24_bad_item cfg rfl rfl (by intro h; cases h) [] [] rfl (some (.list [1, 0, 0])) 0 ⟨[Ex.tri], []⟩ Ex.tri rfl
    (by
      have : ∀ x ∈ Ex.tri.labels, ∃ nb, nb ∈ [[2, 0], [0], [1]] ∧ specNbrs Ex.tri x = some nb ∧
        ∀ y ∈ nb, y ∈ Ex.tri.labels := by decide
      intro x hx
      obtain ⟨nb, _, h⟩ := this x hx
      exact ⟨nb, h⟩)
    rfl (show ∀ x ∈ Ex.tri.labels, x ∈ [0, 1, 2] by decide) 0 [1, 2] (by decide) 2
  cases f with
  | none => exact h.1 rfl
  | some k =>
    refine h.2 k rfl ?_
    simp
    omega

end Verif
