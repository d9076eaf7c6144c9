import Verif.Spec.Async
import Verif.Proofs.Simulate
/-! # The hidden counter of `AsynchronousRule` -/

namespace Verif
section
variable {L A V I τ κ : Type} [DecidableEq L]

/-- The attributes of the rule when the nodes `done` were visited, in the timestep of position `k` of the order `O`. -/
def AsyncAt (sh : Nat → Nat → List L) (rand : Bool) (O : List L) (k d : Nat) (done : List L) (a : Async L) : Prop :=
  if done.countP (fun x => decide (x ∈ O)) < O.length then
    a = ⟨O, k, done.countP (fun x => decide (x ∈ O)), d⟩
  else a = ⟨if rand then sh d O.length else O, (k + 1) % O.length, 0, if rand then d + 1 else d⟩

theorem countP_all {O done : List L} (hd : done.Nodup) (hc : O.length ≤ done.countP (fun x => decide (x ∈ O)))
    (hO : O.Nodup) {x : L} (hx : x ∈ O) : x ∈ done := by
  apply Classical.byContradiction
  intro hxd
  rw [List.countP_eq_length_filter] at hc
  have hnd : (x :: done.filter (fun x => decide (x ∈ O))).Nodup :=
    List.nodup_cons.2 ⟨fun h => hxd (List.mem_filter.1 h).1, hd.filter _⟩
  have := hnd.length_le_of_subset (l₂ := O) (by
    intro y hy
    rcases List.mem_cons.1 hy with rfl | hy
    · exact hx
    · simpa using (List.mem_filter.1 hy).2)
  simp only [List.length_cons] at this
  omega

theorem countP_whole {O l : List L} (hO : O.Nodup) (hs : ∀ x ∈ O, x ∈ l) :
    O.length ≤ l.countP (fun x => decide (x ∈ O)) := by
  rw [List.countP_eq_length_filter]
  exact hO.length_le_of_subset (fun x hx => List.mem_filter.2 ⟨hs x hx, by simpa using hx⟩)

theorem async_node (sh : Nat → Nat → List L) (rand : Bool)
    (rule : NodeCtx L A V I → τ → Except Err (RuleOut L A V × τ)) {O : List L} (hO : O.Nodup) {k d : Nat}
    (hk : k < O.length) (hperm : rand = true → (sh d O.length).Perm O) {done : List L} {x : L} {rest : List L}
    (hnd : (done ++ x :: rest).Nodup) {ctx : NodeCtx L A V I} (hx : ctx.node = x) {a : Async L}
    (ha : AsyncAt sh rand O k d done a) (u : τ) (pick : Nat → Option L) (hpick : pick ctx.t = O[k]?) :
    ∃ a', AsyncAt sh rand O k d (done ++ [x]) a' ∧
      asyncRule sh rand rule ctx (a, u) = besides (pickRule pick rule ctx) (a', u) := by
  have hdn : done.Nodup := (List.nodup_append.1 hnd).1
  have hxd : x ∉ done := fun h => (List.nodup_append.1 hnd).2.2 x h x (by simp) rfl
  have hcount : (done ++ [x]).countP (fun x => decide (x ∈ O)) =
      done.countP (fun x => decide (x ∈ O)) + if x ∈ O then 1 else 0 := by
    rw [List.countP_append]
    simp [List.countP_cons, List.countP_nil]
  have hOk : O[k]? = some O[k] := List.getElem?_eq_getElem hk
  -- the shape of one call
  have shape : ∀ (b : Async L) (y : L), b = (if x ∈ a.order then { a with num := a.num + 1 } else a) →
      b.order[b.curr]? = some y → (x = y ↔ x = O[k]) →
      asyncRule sh rand rule ctx (a, u) = besides (pickRule pick rule ctx) (asyncCheck sh rand b, u) := by
    intro b y hb hy hxy
    unfold asyncRule
    simp only [hx, ← hb, hy]
    unfold besides pickRule
    simp only [hpick, hOk, hx, Option.some.injEq]
    by_cases h : x = y
    · rw [if_pos h, if_pos (hxy.1 h).symm]
      cases rule ctx u with
      | error e => rfl
      | ok p => rfl
    · rw [if_neg h, if_neg (fun e => h (hxy.2 e.symm))]
  by_cases hc : done.countP (fun x => decide (x ∈ O)) < O.length
  · unfold AsyncAt at ha
    rw [if_pos hc] at ha
    generalize hcc : done.countP (fun x => decide (x ∈ O)) = c at *
    by_cases hxO : x ∈ O
    · refine ⟨asyncCheck sh rand ⟨O, k, c + 1, d⟩, ?_, shape ⟨O, k, c + 1, d⟩ O[k] (by rw [ha]; simp [hxO]) hOk Iff.rfl⟩
      unfold AsyncAt
      rw [hcount, if_pos hxO]
      unfold asyncCheck
      by_cases hl : c + 1 < O.length
      · rw [if_pos hl, if_neg (by simp only; omega)]
      · rw [if_neg hl, if_pos (by simp only; omega)]
        cases rand <;> simp
    · refine ⟨⟨O, k, c, d⟩, ?_, ?_⟩
      · unfold AsyncAt
        rw [hcount, if_neg hxO, Nat.add_zero, if_pos hc]
      · have := shape ⟨O, k, c, d⟩ O[k] (by rw [ha]; simp [hxO]) hOk Iff.rfl
        rw [this]
        unfold asyncCheck
        rw [if_neg (by simp only; omega)]
  · have hxO : x ∉ O := fun h => hxd (countP_all hdn (by omega) hO h)
    unfold AsyncAt at ha
    rw [if_neg hc] at ha
    have hlen : (if rand then sh d O.length else O).length = O.length := by
      cases hr : rand with
      | true => exact (hperm hr).length_eq
      | false => rfl
    have hmem : ∀ y ∈ (if rand then sh d O.length else O), y ∈ O := by
      cases hr : rand with
      | true => exact fun y hy => (hperm hr).mem_iff.1 hy
      | false => exact fun y hy => hy
    have hxO' : x ∉ (if rand then sh d O.length else O) := fun h => hxO (hmem x h)
    have hk' : (k + 1) % O.length < (if rand then sh d O.length else O).length := by
      rw [hlen]; exact Nat.mod_lt _ (by omega)
    refine ⟨a, ?_, ?_⟩
    · unfold AsyncAt
      rw [hcount, if_neg hxO, Nat.add_zero, if_neg hc]
      exact ha
    · have hi := List.getElem?_eq_getElem hk'
      have hne : x ≠ (if rand then sh d O.length else O)[(k + 1) % O.length] :=
        fun e => hxO' (by rw [e]; exact List.getElem_mem hk')
      have hne' : x ≠ O[k] := fun e => hxO (by rw [e]; exact List.getElem_mem hk)
      have := shape a _ (by rw [ha]; simp only [hxO', if_false]) (by rw [ha]; exact hi)
        ⟨fun h => absurd h hne, fun h => absurd h hne'⟩
      rw [this]
      unfold asyncCheck
      rw [if_neg (by rw [ha]; simp only [hlen]; omega)]

theorem async_end {sh : Nat → Nat → List L} {rand : Bool} {O : List L} (hO : O.Nodup) {k d : Nat} {l : List L}
    (hs : ∀ x ∈ O, x ∈ l) {a : Async L} (ha : AsyncAt sh rand O k d l a) :
    a = ⟨if rand then sh d O.length else O, (k + 1) % O.length, 0, if rand then d + 1 else d⟩ := by
  unfold AsyncAt at ha
  have := countP_whole hO hs
  rw [if_neg (by omega)] at ha
  exact ha

theorem async_start {sh : Nat → Nat → List L} {rand : Bool} {O : List L} {k d : Nat} (h : 0 < O.length) {a : Async L} :
    AsyncAt sh rand O k d [] a ↔ a = ⟨O, k, 0, d⟩ := by
  unfold AsyncAt
  rw [List.countP_nil, if_pos h]

end
section
variable {L A V I τ κ : Type} [DecidableEq L] [DecidableEq V] [DecidableEq κ]

theorem besides_rel {α β : Type} (f : τ → Except Err (β × τ)) (P : α → Prop) (a : α) (ha : P a) (u : τ) :
    ExRel (fun x y => x.1 = y.1 ∧ P x.2.1 ∧ x.2.2 = y.2) (besides f (a, u)) (f u) := by
  unfold besides
  cases hf : f u with
  | error e => simp only [hf]; exact .error e
  | ok p => simp only [hf]; exact .ok ⟨rfl, ha, rfl⟩

theorem perturb_beside (cfg : Config L A V I τ κ) {α : Type}
    (rule : NodeCtx L A V I → α × τ → Except Err (RuleOut L A V × (α × τ)))
    (rule' : NodeCtx L A V I → τ → Except Err (RuleOut L A V × τ)) (t : Nat) (x : L) (nin : Option I)
    (curr : Dict L V) (P : α → Prop) (a : α) (ha : P a) (u : τ) :
    ExRel (fun x y => x.1 = y.1 ∧ P x.2.1 ∧ x.2.2 = y.2)
      (perturb (cfg.withRule rule) t x nin curr (a, u)) (perturb { cfg with rule := some rule' } t x nin curr u) := by
  unfold perturb Config.withRule
  cases cfg.perturbation with
  | none => exact .ok ⟨rfl, ha, rfl⟩
  | some p =>
    simp only [Option.map_some]
    cases curr.get x with
    | error e => exact .error e
    | ok c =>
      simp only
      have := besides_rel (p ⟨x, c, t, nin⟩) P a ha u
      generalize besides (p ⟨x, c, t, nin⟩) (a, u) = y at this ⊢
      generalize p ⟨x, c, t, nin⟩ u = z at this ⊢
      cases this with
      | error e => exact .error e
      | ok h => exact .ok ⟨by simp only [h.1], h.2.1, h.2.2⟩

theorem callInput_beside (src : InputSrc L A V I τ) {α : Type} (t : Nat) (acts : Dict L V) (n : Net L A) (P : α → Prop)
    (a : α) (ha : P a) (u : τ) :
    ExRel (fun x y => x.1 = y.1 ∧ P x.2.1 ∧ x.2.2 = y.2)
      (callInput (src.beside α) t acts n (a, u)) (callInput src t acts n u) := by
  cases src with
  | neither => exact .error _
  | timesteps k => exact .ok ⟨rfl, ha, rfl⟩
  | list l => exact .ok ⟨rfl, ha, rfl⟩
  | fn f => exact besides_rel (f t acts n) P a ha u

theorem besides_pick {α : Type} {f : τ → Except Err (RuleOut L A V × τ)} {q : Prop} (P : α → Prop) (a : α) (ha : P a) (u : τ)
    (hq : q → ∀ o u', f u = .ok (o, u') → o.added = [] ∧ o.removed = []) :
    ExRel (fun x y => x.1 = y.1 ∧ (q → x.1.added = [] ∧ x.1.removed = []) ∧ P x.2.1 ∧ x.2.2 = y.2)
      (besides f (a, u)) (f u) := by
  unfold besides
  cases hf : f u with
  | error e => simp only [hf]; exact .error e
  | ok p => simp only [hf]; exact .ok ⟨rfl, fun h => hq h _ _ hf, ha, rfl⟩

theorem orderAt_length {sh : Nat → Nat → List L} {rand : Bool} {O : List L} {d : Nat}
    (hperm : rand = true → ∀ i, (sh i O.length).Perm O) (t : Nat) : (orderAt sh rand O d t).Perm O := by
  cases t with
  | zero => exact List.Perm.refl _
  | succ t =>
    unfold orderAt
    cases hr : rand with
    | true => exact hperm hr _
    | false => exact List.Perm.refl _

theorem async_sim (cfg : Config L A V I τ κ) (sh : Nat → Nat → List L) (rand : Bool)
    (rule : NodeCtx L A V I → τ → Except Err (RuleOut L A V × τ)) (hm : cfg.memoize = false)
    (htop : cfg.topology = none) (O : List L) (hO : O.Nodup) (hne : O ≠ []) (d : Nat)
    (hperm : rand = true → ∀ i, (sh i O.length).Perm O) (n : Net L A) (hn : n.labels.Nodup)
    (hs : ∀ x ∈ O, x ∈ n.labels) (hq : ∀ c u o u', rule c u = .ok (o, u') → o.added = [] ∧ o.removed = []) :
    SimSpec (cfg.withRule (asyncRule sh rand rule))
      { cfg with rule := some (pickRule (fun t => (orderAt sh rand O d (t - 1))[(t - 1) % O.length]?) rule) }
      (asyncRule sh rand rule) (pickRule (fun t => (orderAt sh rand O d (t - 1))[(t - 1) % O.length]?) rule) n
      (fun t done s u => 1 ≤ t ∧ AsyncAt sh rand (orderAt sh rand O d (t - 1)) ((t - 1) % O.length)
        (if rand then d + (t - 1) else d) done s.1 ∧ s.2 = u) := by
  have hpos : 0 < O.length := by
    cases O with
    | nil => exact absurd rfl hne
    | cons a l => simp
  have hlen : ∀ t, (orderAt sh rand O d t).length = O.length := fun t => (orderAt_length hperm t).length_eq
  refine ⟨rfl, rfl, by show cfg.topology.map _ = none; rw [htop]; rfl, htop, hm, hm, rfl, rfl, rfl, rfl, rfl, rfl, rfl,
    rfl, rfl, rfl, ?_, ?_, ?_, ?_, ?_⟩
  · show cfg.input.beside _ = .neither ↔ cfg.input = .neither
    cases cfg.input <;> simp [InputSrc.beside]
  · rintro t acts ⟨a, u⟩ _ ⟨h1, h2, rfl⟩
    have := callInput_beside cfg.input t acts n (fun a => AsyncAt sh rand (orderAt sh rand O d (t - 1))
      ((t - 1) % O.length) (if rand then d + (t - 1) else d) [] a) a h2 u
    show ExRel _ (callInput (cfg.input.beside (Async L)) t acts n (a, u)) (callInput cfg.input t acts n u)
    generalize callInput (cfg.input.beside (Async L)) t acts n (a, u) = x at this ⊢
    generalize callInput cfg.input t acts n u = y at this ⊢
    cases this with
    | error e => exact .error e
    | ok h => exact .ok ⟨h.1, h1, h.2.1, h.2.2⟩
  · rintro t done x rest ctx ⟨a, u⟩ _ hl hx ht ⟨h1, h2, rfl⟩
    obtain ⟨a', e1, e2⟩ := async_node sh rand rule ((orderAt_length hperm (t - 1)).nodup_iff.2 hO)
      (by rw [hlen]; exact Nat.mod_lt _ hpos)
      (by
        intro hr
        rw [hlen]
        exact (hperm hr _).trans (orderAt_length hperm _).symm)
      (by rw [← hl]; exact hn) hx h2 u (fun t => (orderAt sh rand O d (t - 1))[(t - 1) % O.length]?) (by rw [ht])
    rw [e2]
    have := besides_pick (q := True) (f := pickRule (fun t => (orderAt sh rand O d (t - 1))[(t - 1) % O.length]?) rule ctx)
      (fun a => AsyncAt sh rand (orderAt sh rand O d (t - 1)) ((t - 1) % O.length) (if rand then d + (t - 1) else d)
        (done ++ [x]) a) a' e1 u (by
        intro _ o u' ho
        unfold pickRule at ho
        split at ho
        · exact hq _ _ _ _ ho
        · cases ho; exact ⟨rfl, rfl⟩)
    generalize besides (pickRule (fun t => (orderAt sh rand O d (t - 1))[(t - 1) % O.length]?) rule ctx) (a', u) = p at this ⊢
    generalize pickRule (fun t => (orderAt sh rand O d (t - 1))[(t - 1) % O.length]?) rule ctx u = q at this ⊢
    cases this with
    | error e => exact .error e
    | ok h => exact .ok ⟨h.1, (h.2.1 trivial).1, (h.2.1 trivial).2, h1, h.2.2.1, h.2.2.2⟩
  · rintro t done x nin curr ⟨a, u⟩ _ ⟨h1, h2, rfl⟩
    have := perturb_beside cfg (asyncRule sh rand rule)
      (pickRule (fun t => (orderAt sh rand O d (t - 1))[(t - 1) % O.length]?) rule) t x nin curr
      (fun a => AsyncAt sh rand (orderAt sh rand O d (t - 1)) ((t - 1) % O.length) (if rand then d + (t - 1) else d)
        done a) a h2 u
    generalize perturb (cfg.withRule (asyncRule sh rand rule)) t x nin curr (a, u) = p at this ⊢
    generalize perturb { cfg with rule := some _ } t x nin curr u = q at this ⊢
    cases this with
    | error e => exact .error e
    | ok h => exact .ok ⟨h.1, h1, h.2.1, h.2.2⟩
  · rintro t ⟨a, u⟩ _ ⟨h1, h2, rfl⟩
    refine ⟨by omega, ?_, rfl⟩
    have e := async_end ((orderAt_length hperm (t - 1)).nodup_iff.2 hO)
      (fun x hx => hs x ((orderAt_length hperm _).mem_iff.1 hx)) h2
    simp only at e
    obtain ⟨t, rfl⟩ : ∃ s, t = s + 1 := ⟨t - 1, by omega⟩
    simp only [Nat.add_sub_cancel] at e ⊢
    rw [async_start (by rw [hlen]; exact hpos), e, hlen]
    have e1 : (if rand = true then sh (if rand = true then d + t else d) O.length else orderAt sh rand O d t) =
        orderAt sh rand O d (t + 1) := by
      cases hr : rand with
      | true => rfl
      | false =>
        cases t with
        | zero => rfl
        | succ t => rfl
    rw [e1, Nat.mod_add_mod]
    cases rand <;> rfl

end
end Verif
