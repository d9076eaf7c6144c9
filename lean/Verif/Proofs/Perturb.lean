import Verif.Props.Memo
/-! # A call with a perturbation as a call with a composed rule -/

namespace Verif
section
variable {L A V I σ κ : Type} [DecidableEq L] [DecidableEq V] [DecidableEq κ]

/-- The activity rule `R` followed by the perturbation `p` of the activity it returns. -/
def pertRule (R : NodeCtx L A V I → σ → Except Err (RuleOut L A V × σ)) (p : PertCtx L V I → σ → Except Err (V × σ))
    (c : NodeCtx L A V I) (u : σ) : Except Err (RuleOut L A V × σ) :=
  match R c u with
  | .error e => .error e
  | .ok (o, u') => match p ⟨c.node, o.value, c.t, c.input⟩ u' with
    | .error e => .error e
    | .ok (v, u'') => .ok (⟨v, o.added, o.removed⟩, u'')

/-- The call without its perturbation, which is part of the rule instead. -/
def composed (cfg : Config L A V I σ κ) (R : NodeCtx L A V I → σ → Except Err (RuleOut L A V × σ))
    (p : PertCtx L V I → σ → Except Err (V × σ)) : Config L A V I σ κ :=
  { cfg with rule := some (pertRule R p), perturbation := none }

omit [DecidableEq V] in
theorem set_set (d : Dict L V) (k : L) (v v' : V) : (d.set k v).set k v' = d.set k v' := by
  induction d with
  | nil => simp [Dict.set]
  | cons p d ih =>
    obtain ⟨a, b⟩ := p
    simp only [Dict.set]
    by_cases h : a = k
    · simp [h, Dict.set]
    · simp [h, Dict.set, ih]

omit [DecidableEq V] [DecidableEq κ] in
theorem mkCtx_fields {cfg : Config L A V I σ κ} {t : Nat} {inp : Inp I} {prev : Dict L V} {n : Net L A}
    {past : Option (List (Option (Dict L V)))} {nmap : Option (Dict L (List L))} {x : L} {c : NodeCtx L A V I}
    (h : mkCtx cfg t inp prev n past nmap x = .ok c) : c.node = x ∧ c.t = t := by
  unfold mkCtx at h
  split at h <;> try cases h
  split at h <;> try cases h
  split at h <;> try cases h
  split at h <;> try cases h
  split at h <;> try cases h
  exact ⟨rfl, rfl⟩

theorem nodeStep_composed {cfg : Config L A V I σ κ} {R p} (hp : cfg.perturbation = some p) (hm : cfg.memoize = false)
    (hR : ∀ c u o u', R c u = .ok (o, u') → c.node ∉ o.removed) (ks : KeySpec L A V I κ) (t : Nat) (inp : Inp I)
    (prev : Dict L V) (n : Net L A) (past : Option (List (Option (Dict L V)))) (nmap : Option (Dict L (List L)))
    (acc : Acc L A V σ κ) (x : L) :
    nodeStep (composed cfg R p) ks (pertRule R p) t inp prev n past nmap acc x =
      nodeStep cfg ks R t inp prev n past nmap acc x := by
  have hc : mkCtx (composed cfg R p) t inp prev n past nmap x = mkCtx cfg t inp prev n past nmap x := rfl
  unfold nodeStep
  rw [hc]
  cases h : mkCtx cfg t inp prev n past nmap x with
  | error e => rfl
  | ok c =>
    obtain ⟨h1, h2⟩ := mkCtx_fields h
    have hm' : (composed cfg R p).memoize = false := hm
    have hp' : (composed cfg R p).perturbation = none := rfl
    simp only [applyRule, hm, hm', perturb, hp, hp', pertRule]
    cases hr : R c acc.user with
    | error e => rfl
    | ok q =>
      obtain ⟨o, u⟩ := q
      have hx := hR c acc.user o u hr
      rw [h1] at hx
      simp only [if_neg hx, h1, h2, Dict.get, Dict.get?_set_self, Bool.false_eq_true, if_false]
      cases hv : p ⟨x, o.value, t, c.input⟩ u with
      | error e => rfl
      | ok r =>
        simp only [set_set, if_neg hx]

theorem computeActs_composed {cfg : Config L A V I σ κ} {R p} (hr : cfg.rule = some R) (hp : cfg.perturbation = some p)
    (hm : cfg.memoize = false) (hR : ∀ c u o u', R c u = .ok (o, u') → c.node ∉ o.removed) :
    computeActs (composed cfg R p) = computeActs cfg := by
  funext ks t inp prev n past nmap memo u
  have hr' : (composed cfg R p).rule = some (pertRule R p) := rfl
  simp only [computeActs, hr, hr', doActivityRule]
  have : (nodeStep (composed cfg R p) ks (pertRule R p) t inp prev n past nmap) =
      nodeStep cfg ks R t inp prev n past nmap := by
    funext acc x
    exact nodeStep_composed hp hm hR ks t inp prev n past nmap acc x
  rw [this]

omit [DecidableEq V] [DecidableEq κ] in
theorem pastLoop_composed (cfg : Config L A V I σ κ) (R p) (traj : List (St L A V)) :
    ∀ k lt acc, pastLoop (composed cfg R p) traj k lt acc = pastLoop cfg traj k lt acc := by
  intro k
  induction k with
  | zero => intro lt acc; rfl
  | succ k ih =>
    intro lt acc
    have : pastEntry (composed cfg R p) traj lt = pastEntry cfg traj lt := rfl
    simp only [pastLoop, this, ih]

theorem evolve_composed {cfg : Config L A V I σ κ} {R p} (hr : cfg.rule = some R) (hp : cfg.perturbation = some p)
    (hm : cfg.memoize = false) (hR : ∀ c u o u', R c u = .ok (o, u') → c.node ∉ o.removed)
    (fuel : Nat) (init : Option (Conds L V)) (r : Nat) (w : World L A σ) :
    evolve fuel (composed cfg R p) init r w = evolve fuel cfg init r w := by
  have hpast : pastActivities (composed cfg R p) = pastActivities cfg := by
    funext traj t
    simp only [pastActivities, pastLoop_composed]
    rfl
  have htop : evolveTopology (composed cfg R p) = evolveTopology cfg := rfl
  have hstep : evolveStep (composed cfg R p) = evolveStep cfg := by
    funext ks inp s
    unfold evolveStep
    rw [hpast, computeActs_composed hr hp hm hR, htop]
    rfl
  have hloop : ∀ ks fuel s, evolveLoop (composed cfg R p) ks fuel s = evolveLoop cfg ks fuel s := by
    intro ks fuel
    induction fuel with
    | zero => intro s; rfl
    | succ k ih =>
      intro s
      have hi : (composed cfg R p).input = cfg.input := rfl
      simp only [evolveLoop, hstep, ih, hi]
  have hinit : evolveInit (composed cfg R p) (initDict (composed cfg R p) init) r w = evolveInit cfg (initDict cfg init) r w := by
    have h1 : (composed cfg R p).rule.isSome = cfg.rule.isSome := by rw [hr]; rfl
    have h2 : initDict (composed cfg R p) init = initDict cfg init := rfl
    rw [h2]
    unfold evolveInit
    rw [h1]
    rfl
  have hk : effectiveKey (composed cfg R p) = effectiveKey cfg := rfl
  unfold evolve
  simp only [hinit, hloop, hk]

end
end Verif
