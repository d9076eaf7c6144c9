import Verif.Proofs.EvolutionFlags
/-! # Two runs that differ only in the persistence and compression flags -/

namespace Verif
section
variable {L A V I σ κ : Type} [DecidableEq L] [DecidableEq V] [DecidableEq κ]

/-- The loop variables agree and the states record the same facts, each through its own flags. -/
structure SameLoop (cfg cfg' : Config L A V I σ κ) (s s' : Loop L A V σ κ) : Prop where
  t : s'.t = s.t
  pos : s.t ≠ 0
  acts : s'.prevActs = s.prevActs
  net : s'.prevNet = s.prevNet
  memo : s'.memo = s.memo
  nmap : s'.nmap = s.nmap
  world : s'.world = s.world
  valid : s.prevNet < s.world.heap.length
  lenT : s.traj.length = s.t
  len : s'.traj.length = s.traj.length
  states : ∀ i, i < s.traj.length → ∃ d r n, s.traj[i]? = some (stOf cfg i d r n) ∧
    s'.traj[i]? = some (stOf cfg' i d r n) ∧ r < s.world.heap.length

theorem evolveReqs_valid {cfg : Config L A V I σ κ} {r r' : Nat} {added : List (AddReq L A V)} {removed : List L}
    {w w' : World L A σ} (hr : r < w.heap.length) (h : evolveReqs cfg r added removed w = .ok (r', w')) :
    r' < w'.heap.length ∧ w.heap.length ≤ w'.heap.length := by
  unfold evolveReqs at h
  split at h
  · cases h; exact ⟨hr, Nat.le_refl _⟩
  · unfold copyObj at h
    cases hc : (w.deref r).copy cfg.labelCodec cfg.attrCodec with
    | error e => simp [hc] at h
    | ok n =>
      simp only [hc] at h
      split at h
      · cases h
      · cases h; simp

theorem callTopology_valid {rule : TopCtx L A V → σ → Except Err (TopOut L A × σ)} {t : Nat} {acts : Dict L V}
    {r r' : Nat} {w w' : World L A σ} (hr : r < w.heap.length) (h : callTopology rule t acts r w = .ok (r', w')) :
    r' < w'.heap.length ∧ w.heap.length ≤ w'.heap.length := by
  unfold callTopology at h
  split at h
  · cases h
  · simp only at h
    split at h
    · cases h
    · split at h
      · cases h
      · cases h; simpa using hr
    · split at h
      · cases h
      · cases h; simp

theorem evolveTopology_valid {cfg : Config L A V I σ κ} {t : Nat} {acts : Dict L V} {r r' : Nat}
    {added : List (AddReq L A V)} {removed : List L} {w w' : World L A σ} (hr : r < w.heap.length)
    (h : evolveTopology cfg t acts r added removed w = .ok (r', w')) :
    r' < w'.heap.length ∧ w.heap.length ≤ w'.heap.length := by
  unfold evolveTopology at h
  cases h1 : evolveReqs cfg r added removed w with
  | error e => simp [h1] at h
  | ok p =>
    obtain ⟨r1, w1⟩ := p
    obtain ⟨a1, a2⟩ := evolveReqs_valid hr h1
    simp only [h1] at h
    cases h2 : cfg.topology with
    | none => simp only [h2, Except.ok.injEq, Prod.mk.injEq] at h; obtain ⟨rfl, rfl⟩ := h; exact ⟨a1, a2⟩
    | some rule =>
      simp only [h2] at h
      split at h
      · unfold copyObj at h
        cases hc : (w1.deref r1).copy cfg.labelCodec cfg.attrCodec with
        | error e => simp [hc] at h
        | ok n =>
          simp only [hc] at h
          obtain ⟨b1, b2⟩ := callTopology_valid (by simp) h
          refine ⟨b1, ?_⟩
          simp at b2
          omega
      · obtain ⟨b1, b2⟩ := callTopology_valid a1 h
        exact ⟨b1, by omega⟩

theorem heap_get {w : World L A σ} {r : Nat} (h : r < w.heap.length) : w.heap[r]? = some (w.deref r) := by
  simp [World.deref, h]

theorem stOf_acts (cfg : Config L A V I σ κ) {i : Nat} (hi : i ≠ 0) (hp : cfg.PackOk) (d : Dict L V)
    {w : World L A σ} {r : Nat} (hr : r < w.heap.length) :
    (∃ st1, storeActs cfg (St.new cfg.compression) d = .ok st1 ∧ storeNet cfg st1 r w = .ok (stOf cfg i d r (w.deref r))) ∧
    (∃ st1, storeNet cfg (St.new cfg.compression) r w = .ok st1 ∧
      storeActs cfg st1 d = .ok (stOf cfg i d r (w.deref r))) := by
  constructor
  · refine ⟨_, storeActs_stOf hp hi d _ rfl rfl, ?_⟩
    rw [storeNet_stOf hp hi (heap_get hr) _ rfl rfl]
    rfl
  · refine ⟨_, storeNet_stOf hp hi (heap_get hr) _ rfl rfl, ?_⟩
    rw [storeActs_stOf hp hi d _ rfl rfl]
    rfl

theorem SameLoop.push {cfg cfg' : Config L A V I σ κ} {s s' : Loop L A V σ κ} (h : SameLoop cfg cfg' s s')
    {d : Dict L V} {r : Nat} {memo : Memo V κ} {nmap : Option (Dict L (List L))} {w : World L A σ}
    (n : Net L A) (hr : r < w.heap.length) (hw : s.world.heap.length ≤ w.heap.length) :
    SameLoop cfg cfg' ⟨s.t + 1, s.traj ++ [stOf cfg s.t d r n], d, r, memo, nmap, w⟩
      ⟨s'.t + 1, s'.traj ++ [stOf cfg' s.t d r n], d, r, memo, nmap, w⟩ := by
  refine ⟨by simp [h.t], by simp, rfl, rfl, rfl, rfl, rfl, hr, by simp [h.lenT], by simp [h.len], ?_⟩
  intro i hi
  simp only [List.length_append, List.length_singleton] at hi
  by_cases hlt : i < s.traj.length
  · obtain ⟨d', r', n', e1, e2, e3⟩ := h.states i hlt
    refine ⟨d', r', n', ?_, ?_, by simp only; omega⟩
    · rw [List.getElem?_append_left hlt]; exact e1
    · rw [List.getElem?_append_left (by rw [h.len]; exact hlt)]; exact e2
  · have : i = s.t := by have := h.lenT; omega
    refine ⟨d, r, n, ?_, ?_, hr⟩
    · rw [List.getElem?_append_right (by omega), this, h.lenT]; simp
    · rw [List.getElem?_append_right (by rw [h.len]; omega), this, h.len, h.lenT]; simp

theorem evolveStep_same {cfg : Config L A V I σ κ} (hp : cfg.past = []) {a b c a' b' c' : Bool}
    (hk : (cfg.withFlags a b c).PackOk) (hk' : (cfg.withFlags a' b' c').PackOk) (ks : KeySpec L A V I κ) (inp : Inp I)
    {s s' : Loop L A V σ κ} (h : SameLoop (cfg.withFlags a b c) (cfg.withFlags a' b' c') s s') :
    match evolveStep (cfg.withFlags a b c) ks inp s with
    | .error e => evolveStep (cfg.withFlags a' b' c') ks inp s' = .error e
    | .ok s1 => ∃ s1', evolveStep (cfg.withFlags a' b' c') ks inp s' = .ok s1' ∧
        SameLoop (cfg.withFlags a b c) (cfg.withFlags a' b' c') s1 s1' := by
  have hpast : ∀ (x y z : Bool) traj t, pastActivities (cfg.withFlags x y z) traj t = .ok none := by
    intro x y z traj t
    unfold pastActivities Config.withFlags
    rw [hp]; rfl
  unfold evolveStep
  rw [hpast, hpast]
  simp only [h.t, h.acts, h.net, h.memo, h.nmap, h.world]
  have o1 : (cfg.withFlags a b c).order = cfg.order := rfl
  have o2 : (cfg.withFlags a' b' c').order = cfg.order := rfl
  have c1 : ∀ t inp prev n past nmap memo u, computeActs (cfg.withFlags a b c) ks t inp prev n past nmap memo u =
      computeActs (cfg.withFlags a' b' c') ks t inp prev n past nmap memo u := fun _ _ _ _ _ _ _ _ => rfl
  have c2 : ∀ t acts r added removed w, evolveTopology (cfg.withFlags a b c) t acts r added removed w =
      evolveTopology (cfg.withFlags a' b' c') t acts r added removed w := fun _ _ _ _ _ _ => rfl
  have k1 : (cfg.withFlags a b c).compression = c := rfl
  have k2 : (cfg.withFlags a' b' c').compression = c' := rfl
  rw [o1, o2]
  cases cfg.order with
  | activitiesFirst =>
    simp only [c1, c2]
    cases hc : computeActs (cfg.withFlags a' b' c') ks s.t inp s.prevActs (s.world.deref s.prevNet) none s.nmap s.memo
        s.world.user with
    | error e => rfl
    | ok acc =>
      simp only
      cases ht : evolveTopology (cfg.withFlags a' b' c') s.t acc.curr s.prevNet acc.added acc.removed
          { s.world with user := acc.user } with
      | error e =>
        have e1 := storeActs_stOf hk h.pos acc.curr (St.new c) rfl rfl
        have e2 := storeActs_stOf hk' h.pos acc.curr (St.new c') rfl rfl
        simp only [k1, k2, e1, e2]
      | ok p =>
        obtain ⟨r, w⟩ := p
        obtain ⟨v1, v2⟩ := evolveTopology_valid (w := { s.world with user := acc.user }) h.valid ht
        obtain ⟨⟨st1, x1, x2⟩, _⟩ := stOf_acts (cfg.withFlags a b c) h.pos hk acc.curr v1
        obtain ⟨⟨st2, y1, y2⟩, _⟩ := stOf_acts (cfg.withFlags a' b' c') h.pos hk' acc.curr v1
        simp only [x1, x2, y1, y2]
        refine ⟨_, rfl, ?_⟩
        have := h.push (d := acc.curr) (memo := acc.memo)
          (nmap := if (acc.added.isEmpty && acc.removed.isEmpty) = true then s.nmap
            else some (neighbourhoodMap (w.deref r))) (w.deref r) v1 v2
        rwa [h.t] at this
  | topologyFirst =>
    simp only [c1, c2]
    cases ht : evolveTopology (cfg.withFlags a' b' c') s.t s.prevActs s.prevNet [] [] s.world with
    | error e => rfl
    | ok p =>
      obtain ⟨r, w⟩ := p
      obtain ⟨v1, v2⟩ := evolveTopology_valid h.valid ht
      simp only
      cases hc : computeActs (cfg.withFlags a' b' c') ks s.t inp s.prevActs (w.deref r) none s.nmap s.memo w.user with
      | error e =>
        have e1 := storeNet_stOf hk h.pos (heap_get v1) (St.new c) rfl rfl
        have e2 := storeNet_stOf hk' h.pos (heap_get v1) (St.new c') rfl rfl
        simp only [k1, k2, e1, e2]
      | ok acc =>
        obtain ⟨_, ⟨st1, x1, x2⟩⟩ := stOf_acts (cfg.withFlags a b c) h.pos hk acc.curr v1
        obtain ⟨_, ⟨st2, y1, y2⟩⟩ := stOf_acts (cfg.withFlags a' b' c') h.pos hk' acc.curr v1
        simp only [x1, x2, y1, y2]
        refine ⟨_, rfl, ?_⟩
        have := h.push (d := acc.curr) (memo := acc.memo) (nmap := s.nmap) (w := { w with user := acc.user })
          (w.deref r) v1 v2
        rwa [h.t] at this
  | synchronous =>
    simp only [c1, c2]
    cases ht : evolveTopology (cfg.withFlags a' b' c') s.t s.prevActs s.prevNet [] [] s.world with
    | error e => rfl
    | ok p =>
      obtain ⟨r, w⟩ := p
      obtain ⟨v1, v2⟩ := evolveTopology_valid h.valid ht
      simp only
      cases hc : computeActs (cfg.withFlags a' b' c') ks s.t inp s.prevActs (w.deref s.prevNet) none s.nmap s.memo
          w.user with
      | error e =>
        have e1 := storeNet_stOf hk h.pos (heap_get v1) (St.new c) rfl rfl
        have e2 := storeNet_stOf hk' h.pos (heap_get v1) (St.new c') rfl rfl
        simp only [k1, k2, e1, e2]
      | ok acc =>
        obtain ⟨_, ⟨st1, x1, x2⟩⟩ := stOf_acts (cfg.withFlags a b c) h.pos hk acc.curr v1
        obtain ⟨_, ⟨st2, y1, y2⟩⟩ := stOf_acts (cfg.withFlags a' b' c') h.pos hk' acc.curr v1
        simp only [x1, x2, y1, y2]
        refine ⟨_, rfl, ?_⟩
        have := h.push (d := acc.curr) (memo := acc.memo) (nmap := s.nmap) (w := { w with user := acc.user })
          (w.deref r) v1 v2
        rwa [h.t] at this

theorem evolveLoop_same {cfg : Config L A V I σ κ} (hp : cfg.past = []) {a b c a' b' c' : Bool}
    (hk : (cfg.withFlags a b c).PackOk) (hk' : (cfg.withFlags a' b' c').PackOk) (ks : KeySpec L A V I κ) (fuel : Nat)
    {s s' : Loop L A V σ κ} (h : SameLoop (cfg.withFlags a b c) (cfg.withFlags a' b' c') s s') :
    match evolveLoop (cfg.withFlags a b c) ks fuel s with
    | .error e => evolveLoop (cfg.withFlags a' b' c') ks fuel s' = .error e
    | .ok s1 => ∃ s1', evolveLoop (cfg.withFlags a' b' c') ks fuel s' = .ok s1' ∧
        SameLoop (cfg.withFlags a b c) (cfg.withFlags a' b' c') s1 s1' := by
  induction fuel generalizing s s' with
  | zero => rfl
  | succ fuel ih =>
    unfold evolveLoop
    have i1 : (cfg.withFlags a b c).input = cfg.input := rfl
    have i2 : (cfg.withFlags a' b' c').input = cfg.input := rfl
    rw [i1, i2, h.t, h.acts, h.net, h.world]
    cases hc : callInput cfg.input s.t s.prevActs (s.world.deref s.prevNet) s.world.user with
    | error e => rfl
    | ok p =>
      obtain ⟨o, u⟩ := p
      cases o with
      | none =>
        refine ⟨_, rfl, ?_⟩
        exact ⟨rfl, h.pos, rfl, rfl, h.memo, h.nmap, rfl, h.valid, h.lenT, h.len, h.states⟩
      | some inp =>
        simp only
        have hs : SameLoop (cfg.withFlags a b c) (cfg.withFlags a' b' c') { s with world := { s.world with user := u } }
            { s' with world := { s.world with user := u } } :=
          ⟨h.t, h.pos, h.acts, h.net, h.memo, h.nmap, rfl, h.valid, h.lenT, h.len, h.states⟩
        have h1 := evolveStep_same hp hk hk' ks inp hs
        cases h2 : evolveStep (cfg.withFlags a b c) ks inp { s with world := { s.world with user := u } } with
        | error e => simp only [h2, h.t, h.acts, h.net] at h1; simp only [h1]
        | ok s1 =>
          simp only [h2] at h1
          obtain ⟨s1', e1, e2⟩ := h1
          rw [h.t, h.acts, h.net] at e1
          simp only [e1]
          exact ih e2

theorem evolveInit_same {cfg : Config L A V I σ κ} {a b c a' b' c' : Bool}
    (hk : (cfg.withFlags a b c).PackOk) (hk' : (cfg.withFlags a' b' c').PackOk) (d : Dict L V) {r : Nat}
    {w : World L A σ} (hr : r < w.heap.length) :
    match evolveInit (cfg.withFlags a b c) d r w with
    | .error e => evolveInit (cfg.withFlags a' b' c') d r w = .error e
    | .ok s1 => ∃ s1', evolveInit (cfg.withFlags a' b' c') d r w = .ok s1' ∧
        SameLoop (cfg.withFlags a b c) (cfg.withFlags a' b' c') s1 s1' := by
  have key : ∀ (x y z : Bool), (cfg.withFlags x y z).PackOk → 
      evolveInit (cfg.withFlags x y z) d r w = match vcheck cfg d (w.deref r) with
        | .error e => .error e
        | .ok () => .ok ⟨1, [stOf (cfg.withFlags x y z) 0 d r (w.deref r)], d, r, [],
            if cfg.topology.isSome then none else some (neighbourhoodMap (w.deref r)), w⟩ := by
    intro x y z hk
    have hst : ∃ s1, (St.new (cfg.withFlags x y z).compression : St L A V).setActs (cfg.withFlags x y z).labelCodec
        (cfg.withFlags x y z).valCodec d = .ok s1 ∧
        s1.setNet (cfg.withFlags x y z).labelCodec (cfg.withFlags x y z).attrCodec r (w.deref r) =
          .ok (stOf (cfg.withFlags x y z) 0 d r (w.deref r)) := by
      refine ⟨_, store_acts hk _ rfl d, ?_⟩
      rw [store_net hk _ (by split <;> rfl)]
      unfold stOf actsOf netOf
      cases h1 : d.isEmpty <;> cases h2 : (w.deref r).nodes.isEmpty <;> simp [St.new]
    obtain ⟨s1, e1, e2⟩ := hst
    unfold evolveInit vcheck
    have i1 : (cfg.withFlags x y z).input = cfg.input := rfl
    have i2 : (cfg.withFlags x y z).rule = cfg.rule := rfl
    have i3 : (cfg.withFlags x y z).topology = cfg.topology := rfl
    rw [i1, i2, i3]
    cases cfg.input with
    | neither => rfl
    | timesteps _ => simp only; split <;> simp [e1, e2]
    | list _ => simp only; split <;> simp [e1, e2]
    | fn _ => simp only; split <;> simp [e1, e2]
  rw [key _ _ _ hk, key _ _ _ hk']
  cases vcheck cfg d (w.deref r) with
  | error e => rfl
  | ok x =>
    refine ⟨_, rfl, ?_⟩
    refine ⟨rfl, by simp, rfl, rfl, rfl, rfl, rfl, hr, by simp, by simp, ?_⟩
    intro i hi
    simp only [List.length_singleton] at hi
    have : i = 0 := by omega
    subst this
    exact ⟨d, r, w.deref r, rfl, rfl, hr⟩

theorem evolve_same {cfg : Config L A V I σ κ} (hp : cfg.past = []) {a b c a' b' c' : Bool}
    (hk : (cfg.withFlags a b c).PackOk) (hk' : (cfg.withFlags a' b' c').PackOk) (fuel : Nat)
    (init : Option (Conds L V)) {r : Nat} {w : World L A σ} (hr : r < w.heap.length) :
    match evolve fuel (cfg.withFlags a b c) init r w with
    | .error e => evolve fuel (cfg.withFlags a' b' c') init r w = .error e
    | .ok res => ∃ res', evolve fuel (cfg.withFlags a' b' c') init r w = .ok res' ∧
        res'.world = res.world ∧ res'.states.length = res.states.length ∧
        ∀ i, i < res.states.length → ∃ d r n, res.states[i]? = some (stOf (cfg.withFlags a b c) i d r n) ∧
          res'.states[i]? = some (stOf (cfg.withFlags a' b' c') i d r n) ∧ r < res.world.heap.length := by
  unfold evolve
  have e1 : initDict (cfg.withFlags a b c) init = initDict cfg init := by cases init <;> rfl
  have e2 : initDict (cfg.withFlags a' b' c') init = initDict cfg init := by cases init <;> rfl
  have e3 : effectiveKey (cfg.withFlags a b c) (w.deref r) = effectiveKey cfg (w.deref r) := rfl
  have e4 : effectiveKey (cfg.withFlags a' b' c') (w.deref r) = effectiveKey cfg (w.deref r) := rfl
  rw [e1, e2, e3, e4]
  have h0 := evolveInit_same hk hk' (initDict cfg init) hr
  cases hi : evolveInit (cfg.withFlags a b c) (initDict cfg init) r w with
  | error e => simp only [hi] at h0; simp only [h0]
  | ok s =>
    simp only [hi] at h0
    obtain ⟨s', a1, a2⟩ := h0
    simp only [a1]
    have h1 := evolveLoop_same hp hk hk' (effectiveKey cfg (w.deref r)) fuel a2
    cases hl : evolveLoop (cfg.withFlags a b c) (effectiveKey cfg (w.deref r)) fuel s with
    | error e => simp only [hl] at h1; simp only [h1]
    | ok s1 =>
      simp only [hl] at h1
      obtain ⟨s1', b1, b2⟩ := h1
      simp only [b1]
      exact ⟨_, rfl, b2.world, b2.len, b2.states⟩

end
end Verif
