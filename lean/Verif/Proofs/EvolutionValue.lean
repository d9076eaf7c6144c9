import Verif.Spec.Evolution
/-! # Value-level semantics of `evolve` and refinement

`VLoop` is the loop state of `evolve` without heap, references and `State` slots: the history holds the values of all
timesteps.  `evolve_refines` says that, if in-place changes cannot reach a shared object, the heap-level model computes
exactly what the value-level loop computes. -/

namespace Verif
section
variable {L A V I σ κ : Type} [DecidableEq L] [DecidableEq V] [DecidableEq κ]

/-- Loop state with values only. -/
structure VLoop (L A V σ κ : Type) where
  hist : List (Dict L V × Net L A)
  acts : Dict L V
  net : Net L A
  memo : Memo V κ
  nmap : Option (Dict L (List L))
  user : σ

/-- Requests applied to a value. -/
def reqsV (cfg : Config L A V I σ κ) (n : Net L A) (added : List (AddReq L A V)) (removed : List L) :
    Except Err (Net L A) :=
  if added.isEmpty && removed.isEmpty then .ok n
  else match n.copy cfg.labelCodec cfg.attrCodec with
    | .error e => .error e
    | .ok n' => match applyReqs cfg added removed n' with
      | (.error e, _) => .error e
      | (.ok (), n'') => .ok n''

/-- Network returned by a topology rule. -/
def TopOut.value (o : TopOut L A) : Option (Net L A) :=
  match o.ret with
  | .none => none
  | .same => if o.given.nodes.isEmpty then none else some o.given
  | .fresh n => if n.nodes.isEmpty then none else some n

/-- Topology rule applied to a value. -/
def ruleV (rule : TopCtx L A V → σ → Except Err (TopOut L A × σ)) (t : Nat) (acts : Dict L V) (n : Net L A) (u : σ) :
    Except Err (Net L A × σ) :=
  match rule ⟨n, acts, t⟩ u with
  | .error e => .error e
  | .ok (o, u') => match o.value with
    | none => .error (.exception "topology rule must return a network")
    | some n' => .ok (n', u')

/-- `evolve_topology` on values. -/
def topoV (cfg : Config L A V I σ κ) (t : Nat) (acts : Dict L V) (n : Net L A) (added : List (AddReq L A V))
    (removed : List L) (u : σ) : Except Err (Net L A × σ) :=
  match reqsV cfg n added removed with
  | .error e => .error e
  | .ok n1 => match cfg.topology with
    | none => .ok (n1, u)
    | some rule =>
      if cfg.copyNetwork then
        match n1.copy cfg.labelCodec cfg.attrCodec with
        | .error e => .error e
        | .ok n2 => ruleV rule t acts n2 u
      else ruleV rule t acts n1 u

/-- Past entry from observed activities. -/
def pastEntryV (cfg : Config L A V I σ κ) (obs : List (Option (Dict L V))) (lastT : Int) :
    Except Err (Option (Dict L V)) :=
  if lastT < 1 then
    match pyGet cfg.past (lastT - 1) with
    | .error e => .error e
    | .ok c => .ok (some (c.toDict cfg.natLabel))
  else match obs[(lastT - 1).toNat]? with
    | none => .error .keyError
    | some d => .ok d

/-- Loop of `_get_past_activities` from observed activities. -/
def pastLoopV (cfg : Config L A V I σ κ) (obs : List (Option (Dict L V))) :
    Nat → Int → List (Option (Dict L V)) → Except Err (List (Option (Dict L V)))
  | 0, _, acc => .ok acc
  | k + 1, lastT, acc => match pastEntryV cfg obs lastT with
    | .error e => .error e
    | .ok d => pastLoopV cfg obs k (lastT - 1) (d :: acc)

/-- `_get_past_activities` from observed activities. -/
def pastV (cfg : Config L A V I σ κ) (obs : List (Option (Dict L V))) (t : Nat) :
    Except Err (Option (List (Option (Dict L V)))) :=
  if cfg.past.isEmpty then .ok none
  else match pastLoopV cfg obs cfg.past.length ((t : Int) - 1) [] with
    | .error e => .error e
    | .ok l => .ok (some l)

/-- One timestep on values. -/
def vstep (cfg : Config L A V I σ κ) (ks : KeySpec L A V I κ) (inp : Inp I) (v : VLoop L A V σ κ) :
    Except Err (VLoop L A V σ κ) :=
  match pastV cfg (obsHist cfg v.hist) v.hist.length with
  | .error e => .error e
  | .ok past => match cfg.order with
    | .activitiesFirst =>
      match computeActs cfg ks v.hist.length inp v.acts v.net past v.nmap v.memo v.user with
      | .error e => .error e
      | .ok acc => match topoV cfg v.hist.length acc.curr v.net acc.added acc.removed acc.user with
        | .error e => .error e
        | .ok (n, u) => .ok ⟨v.hist ++ [(acc.curr, n)], acc.curr, n, acc.memo,
            if acc.added.isEmpty && acc.removed.isEmpty then v.nmap else some (neighbourhoodMap n), u⟩
    | .topologyFirst =>
      match topoV cfg v.hist.length v.acts v.net [] [] v.user with
      | .error e => .error e
      | .ok (n, u) => match computeActs cfg ks v.hist.length inp v.acts n past v.nmap v.memo u with
        | .error e => .error e
        | .ok acc => .ok ⟨v.hist ++ [(acc.curr, n)], acc.curr, n, acc.memo, v.nmap, acc.user⟩
    | .synchronous =>
      match topoV cfg v.hist.length v.acts v.net [] [] v.user with
      | .error e => .error e
      | .ok (n, u) => match computeActs cfg ks v.hist.length inp v.acts v.net past v.nmap v.memo u with
        | .error e => .error e
        | .ok acc => .ok ⟨v.hist ++ [(acc.curr, n)], acc.curr, n, acc.memo, v.nmap, acc.user⟩

/-- Main loop on values. -/
def vloop (cfg : Config L A V I σ κ) (ks : KeySpec L A V I κ) :
    Nat → VLoop L A V σ κ → Except Err (VLoop L A V σ κ)
  | 0, _ => .error .outOfFuel
  | fuel + 1, v =>
    match callInput cfg.input v.hist.length v.acts v.net v.user with
    | .error e => .error e
    | .ok (none, u) => .ok { v with user := u }
    | .ok (some inp, u) => match vstep cfg ks inp { v with user := u } with
      | .error e => .error e
      | .ok v' => vloop cfg ks fuel v'

/-- Initial value-level state. -/
def vinit (cfg : Config L A V I σ κ) (d : Dict L V) (n : Net L A) (u : σ) : VLoop L A V σ κ :=
  ⟨[(d, n)], d, n, [], if cfg.topology.isSome then none else some (neighbourhoodMap n), u⟩

/-- The checks made before the loop. -/
def vcheck (cfg : Config L A V I σ κ) (d : Dict L V) (n : Net L A) : Except Err Unit :=
  match cfg.input with
  | .neither => .error (.exception "either the timesteps or input must be provided")
  | _ => if d.length ≠ n.size ∧ cfg.rule.isSome then .error (.exception "too few intial conditions specified")
         else .ok ()

/-- `evolve` on values. -/
def vevolve (fuel : Nat) (cfg : Config L A V I σ κ) (init : Option (Conds L V)) (n : Net L A) (u : σ) :
    Except Err (VLoop L A V σ κ) :=
  match vcheck cfg (initDict cfg init) n with
  | .error e => .error e
  | .ok () => vloop cfg (effectiveKey cfg n) fuel (vinit cfg (initDict cfg init) n u)

/-! ## Packing -/

omit [DecidableEq L] in
theorem packAll_ok {T : Type} {f : T → Except Err Unit} (h : ∀ x, f x = .ok ()) (l : List T) : packAll f l = .ok () := by
  induction l with
  | nil => rfl
  | cons x l ih => simp [packAll, h x, ih]

theorem packActs_ok {cl : Codec L} {cv : Codec V} (h1 : ∀ x, cl.pack x = .ok ()) (h2 : ∀ x, cv.pack x = .ok ())
    (d : Dict L V) : packActs cl cv d = .ok () :=
  packAll_ok (fun p => by simp [packPair, h1, h2]) d

theorem packNet_ok {cl : Codec L} {ca : Codec A} (h1 : ∀ x, cl.pack x = .ok ()) (h2 : ∀ x, ca.pack x = .ok ())
    (n : Net L A) : n.pack cl ca = .ok () := by
  refine packAll_ok (fun p => ?_) n.nodes
  have ha : ∀ a : Attr A, packAttr ca a = .ok () := fun a => packAll_ok (fun p => h2 _) a
  have e1 : packAll (packPair cl.pack (packAll (packAttr ca))) p.2.incoming = .ok () :=
    packAll_ok (fun q => by simp [packPair, h1, packAll_ok ha]) _
  have e2 : packAll cl.pack p.2.outgoing = .ok () := packAll_ok h1 _
  simp only [packPair, packNode, h1, e1, e2, ha]

/-! ## Topology -/

theorem deref_eq {w : World L A σ} {r : Nat} {n : Net L A} (h : w.heap[r]? = some n) : w.deref r = n := by
  simp [World.deref, h]

theorem evolveReqs_refines (cfg : Config L A V I σ κ) {r : Nat} {w : World L A σ} {n : Net L A}
    (hr : w.heap[r]? = some n) (added : List (AddReq L A V)) (removed : List L) :
    match reqsV cfg n added removed with
    | .error e => evolveReqs cfg r added removed w = .error e
    | .ok n' => ∃ r' ext, evolveReqs cfg r added removed w = .ok (r', ⟨w.heap ++ ext, w.user⟩) ∧
        (w.heap ++ ext)[r']? = some n' := by
  unfold reqsV evolveReqs copyObj
  by_cases h : (added.isEmpty && removed.isEmpty) = true
  · simp only [h, if_true]
    exact ⟨r, [], by simp, by simpa using hr⟩
  · simp only [h, Bool.false_eq_true, if_false]
    rw [deref_eq hr]
    cases hc : n.copy cfg.labelCodec cfg.attrCodec with
    | error e => rfl
    | ok n' =>
      have hd : World.deref (⟨w.heap ++ [n'], w.user⟩ : World L A σ) w.heap.length = n' := by simp [World.deref]
      simp only [hd]
      rcases ha : applyReqs cfg added removed n' with ⟨res, n''⟩
      cases res with
      | error e => rfl
      | ok x =>
        simp only
        exact ⟨w.heap.length, [n''], by simp [List.set_append], by simp⟩

theorem callTopology_refines {rule : TopCtx L A V → σ → Except Err (TopOut L A × σ)} {t : Nat} {acts : Dict L V}
    {r : Nat} {w : World L A σ} {n : Net L A} {base ext0 : List (Net L A)} (hw : w.heap = base ++ ext0)
    (hr : w.heap[r]? = some n)
    (hsafe : base.length ≤ r ∨ ∀ ctx u o u', rule ctx u = .ok (o, u') → o.given = ctx.net) :
    match ruleV rule t acts n w.user with
    | .error e => callTopology rule t acts r w = .error e
    | .ok (n', u') => ∃ r' ext, callTopology rule t acts r w = .ok (r', ⟨base ++ ext, u'⟩) ∧
        (base ++ ext)[r']? = some n' := by
  unfold ruleV callTopology
  rw [deref_eq hr]
  cases hru : rule ⟨n, acts, t⟩ w.user with
  | error e => rfl
  | ok p =>
    obtain ⟨o, u'⟩ := p
    simp only
    have hlt : r < w.heap.length := (List.getElem?_eq_some_iff.1 hr).1
    have hset : ∃ ext1, w.heap.set r o.given = base ++ ext1 := by
      rcases hsafe with h | h
      · exact ⟨ext0.set (r - base.length) o.given, by rw [hw, List.set_append]; simp [Nat.not_lt.2 h]⟩
      · have hg := h _ _ _ _ hru
        refine ⟨ext0, ?_⟩
        rw [← hw, hg]
        simp only
        have := (List.getElem?_eq_some_iff.1 hr).2
        rw [← this]; simp
    obtain ⟨ext1, hext⟩ := hset
    simp only [TopOut.value]
    cases hret : o.ret with
    | none => rfl
    | same =>
      simp only
      by_cases he : o.given.nodes.isEmpty = true
      · simp [he]
      · simp only [he, Bool.false_eq_true, if_false]
        refine ⟨r, ext1, by rw [hext], ?_⟩
        rw [← hext]; simp [hlt]
    | fresh m =>
      simp only
      by_cases he : m.nodes.isEmpty = true
      · simp [he]
      · simp only [he, Bool.false_eq_true, if_false]
        refine ⟨(w.heap.set r o.given).length, ext1 ++ [m], by rw [hext, List.append_assoc], ?_⟩
        rw [← List.append_assoc, ← hext]; simp

theorem evolveTopology_refines {cfg : Config L A V I σ κ} (hs : cfg.Safe) (t : Nat) (acts : Dict L V) {r : Nat}
    {w : World L A σ} {n : Net L A} (hr : w.heap[r]? = some n) (added : List (AddReq L A V)) (removed : List L) :
    match topoV cfg t acts n added removed w.user with
    | .error e => evolveTopology cfg t acts r added removed w = .error e
    | .ok (n', u') => ∃ r' ext, evolveTopology cfg t acts r added removed w = .ok (r', ⟨w.heap ++ ext, u'⟩) ∧
        (w.heap ++ ext)[r']? = some n' := by
  have h1 := evolveReqs_refines cfg hr added removed
  unfold topoV evolveTopology
  cases hq : reqsV cfg n added removed with
  | error e => simp only [hq] at h1; simp [h1]
  | ok n1 =>
    simp only [hq] at h1
    obtain ⟨r1, ext1, e1, e2⟩ := h1
    simp only [e1]
    cases ht : cfg.topology with
    | none => simp only; exact ⟨r1, ext1, rfl, e2⟩
    | some rule =>
      simp only
      by_cases hc : cfg.copyNetwork = true
      · simp only [hc, if_true]
        unfold copyObj
        have hd : World.deref (⟨w.heap ++ ext1, w.user⟩ : World L A σ) r1 = n1 := deref_eq e2
        simp only [hd]
        cases hcp : n1.copy cfg.labelCodec cfg.attrCodec with
        | error e => rfl
        | ok n2 =>
          simp only
          exact callTopology_refines (w := ⟨w.heap ++ ext1 ++ [n2], w.user⟩) (base := w.heap) (ext0 := ext1 ++ [n2])
            (by simp) (by simp) (Or.inl (by simp))
      · simp only [hc, Bool.false_eq_true, if_false]
        have hp : ∀ ctx u o u', rule ctx u = .ok (o, u') → o.given = ctx.net := by
          rcases hs with h | h
          · exact absurd h hc
          · exact h rule ht
        exact callTopology_refines (w := ⟨w.heap ++ ext1, w.user⟩) (base := w.heap) (ext0 := ext1) rfl e2 (Or.inr hp)

/-! ## States -/

/-- `st` is the state of timestep `i` holding activities `d` and network `n`. -/
structure Represents (cfg : Config L A V I σ κ) (heap : List (Net L A)) (i : Nat) (st : St L A V) (d : Dict L V)
    (n : Net L A) : Prop where
  acts : st.getActs cfg.labelCodec cfg.valCodec = obsActs cfg i d
  net : st.getNet cfg.labelCodec cfg.attrCodec heap = obsNet cfg i n
  valid : ∀ r, st.net = some (.ref r) → r < heap.length

theorem Represents.extend {cfg : Config L A V I σ κ} {heap ext : List (Net L A)} {i : Nat} {st : St L A V}
    {d : Dict L V} {n : Net L A} (h : Represents cfg heap i st d n) : Represents cfg (heap ++ ext) i st d n := by
  refine ⟨h.acts, ?_, fun r hr => by have := h.valid r hr; simp; omega⟩
  rw [← h.net]
  unfold St.getNet
  cases hn : st.net with
  | none => rfl
  | some sl => cases sl with
    | packed m => rfl
    | ref r =>
      have := h.valid r hn
      simp only [List.getElem?_append_left this]

/-- Storing (or not storing) the values of a timestep in the two orders used by the code. -/
theorem store_acts {cfg : Config L A V I σ κ} (hp : cfg.PackOk) (st : St L A V) (hc : st.compression = cfg.compression)
    (d : Dict L V) :
    st.setActs cfg.labelCodec cfg.valCodec d = .ok (if d.isEmpty then st else { st with acts := some d }) := by
  unfold St.setActs
  by_cases he : d.isEmpty = true
  · simp [he]
  · simp only [he, Bool.false_eq_true, if_false]
    by_cases h : st.compression = true
    · have := hp (by rw [← hc]; exact h)
      simp [h, packActs_ok this.1 this.2.2]
    · simp [h]

theorem store_net {cfg : Config L A V I σ κ} (hp : cfg.PackOk) (st : St L A V) (hc : st.compression = cfg.compression)
    (r : Nat) (n : Net L A) :
    st.setNet cfg.labelCodec cfg.attrCodec r n = .ok (if n.nodes.isEmpty then st else
      { st with net := some (if cfg.compression then .packed n else .ref r) }) := by
  unfold St.setNet
  by_cases he : n.nodes.isEmpty = true
  · simp [he]
  · simp only [he, Bool.false_eq_true, if_false]
    by_cases h : st.compression = true
    · have := hp (by rw [← hc]; exact h)
      rw [hc] at h
      simp [hc, h, packNet_ok this.1 this.2.1]
    · rw [hc] at h; simp [hc, h]

/-- Activity slot of timestep `i`. -/
def actsOf (cfg : Config L A V I σ κ) (i : Nat) (d : Dict L V) : Option (Dict L V) :=
  if (i = 0 ∨ cfg.persistActs = true) ∧ d.isEmpty = false then some d else none

/-- Network slot of timestep `i`. -/
def netOf (cfg : Config L A V I σ κ) (i : Nat) (r : Nat) (n : Net L A) : Option (NetSlot L A) :=
  if (i = 0 ∨ cfg.persistNet = true) ∧ n.nodes.isEmpty = false then
    some (if cfg.compression then .packed n else .ref r)
  else none

/-- The state written for timestep `i`. -/
def stOf (cfg : Config L A V I σ κ) (i : Nat) (d : Dict L V) (r : Nat) (n : Net L A) : St L A V :=
  ⟨cfg.compression, actsOf cfg i d, netOf cfg i r n⟩

theorem represents_stOf (cfg : Config L A V I σ κ) (heap : List (Net L A)) (i : Nat) (d : Dict L V) (r : Nat)
    (n : Net L A) (hr : heap[r]? = some n) : Represents cfg heap i (stOf cfg i d r n) d n := by
  refine ⟨?_, ?_, ?_⟩
  · unfold St.getActs stOf obsActs actsOf
    by_cases h : (i = 0 ∨ cfg.persistActs = true) ∧ d.isEmpty = false
    · simp only [h, and_self, if_true, Option.map_some]
    · simp only [h, if_false, Option.map_none]
  · unfold St.getNet stOf obsNet netOf
    by_cases h : (i = 0 ∨ cfg.persistNet = true) ∧ n.nodes.isEmpty = false
    · by_cases hc : cfg.compression = true
      · simp only [h, hc, and_self, if_true]
      · simp only [h, hc, Bool.false_eq_true, if_false, and_self, if_true, hr]
    · simp only [h, if_false]
  · intro r' hr'
    simp only [stOf, netOf] at hr'
    by_cases h : (i = 0 ∨ cfg.persistNet = true) ∧ n.nodes.isEmpty = false
    · by_cases hc : cfg.compression = true
      · simp [h, hc] at hr'
      · simp [h, hc] at hr'
        subst hr'
        exact (List.getElem?_eq_some_iff.1 hr).1
    · rw [if_neg h] at hr'; cases hr'

theorem storeActs_stOf {cfg : Config L A V I σ κ} (hp : cfg.PackOk) {i : Nat} (hi : i ≠ 0) (d : Dict L V)
    (st : St L A V) (hc : st.compression = cfg.compression) (hn : st.acts = none) :
    storeActs cfg st d = .ok { st with acts := actsOf cfg i d } := by
  unfold storeActs actsOf
  obtain ⟨c, a, m⟩ := st
  simp only at hn hc; subst hn
  by_cases h : cfg.persistActs = true
  · simp only [h, if_true]; rw [store_acts hp _ hc]
    by_cases he : d.isEmpty = true <;> simp [he]
  · simp [h, hi]

theorem storeNet_stOf {cfg : Config L A V I σ κ} (hp : cfg.PackOk) {i : Nat} (hi : i ≠ 0) {r : Nat} {w : World L A σ}
    {n : Net L A} (hr : w.heap[r]? = some n)
    (st : St L A V) (hc : st.compression = cfg.compression) (hn : st.net = none) :
    storeNet cfg st r w = .ok { st with net := netOf cfg i r n } := by
  unfold storeNet netOf
  rw [deref_eq hr]
  obtain ⟨c, a, m⟩ := st
  simp only at hn hc; subst hn
  by_cases h : cfg.persistNet = true
  · simp only [h, if_true]; rw [store_net hp _ hc]
    by_cases he : n.nodes.isEmpty = true <;> simp [he]
  · simp [h, hi]

/-! ## Past activities -/

theorem pastEntry_eq (cfg : Config L A V I σ κ) (traj : List (St L A V)) (lastT : Int) :
    pastEntry cfg traj lastT =
      pastEntryV cfg (traj.map (fun s => s.getActs cfg.labelCodec cfg.valCodec)) lastT := by
  unfold pastEntry pastEntryV
  split
  · rfl
  · rw [List.getElem?_map]
    cases traj[(lastT - 1).toNat]? <;> rfl

theorem pastActivities_eq (cfg : Config L A V I σ κ) (traj : List (St L A V)) (t : Nat) :
    pastActivities cfg traj t = pastV cfg (traj.map (fun s => s.getActs cfg.labelCodec cfg.valCodec)) t := by
  have hl : ∀ k lastT acc, pastLoop cfg traj k lastT acc =
      pastLoopV cfg (traj.map (fun s => s.getActs cfg.labelCodec cfg.valCodec)) k lastT acc := by
    intro k
    induction k with
    | zero => intros; rfl
    | succ k ih => intro lastT acc; simp only [pastLoop, pastLoopV, pastEntry_eq, ih]; rfl
  unfold pastActivities pastV
  rw [hl]; rfl

/-! ## The simulation relation -/

/-- The heap-level loop state `s` represents the value-level state `v`; `base` is a prefix of the heap. -/
structure Rel (cfg : Config L A V I σ κ) (base : List (Net L A)) (s : Loop L A V σ κ) (v : VLoop L A V σ κ) : Prop where
  t : s.t = v.hist.length
  pos : v.hist ≠ []
  len : s.traj.length = v.hist.length
  acts : s.prevActs = v.acts
  net : s.world.heap[s.prevNet]? = some v.net
  memo : s.memo = v.memo
  nmap : s.nmap = v.nmap
  user : s.world.user = v.user
  base : ∃ ext, s.world.heap = base ++ ext
  states : ∀ i st p, s.traj[i]? = some st → v.hist[i]? = some p →
    Represents cfg s.world.heap i st p.1 p.2

theorem Rel.obs {cfg : Config L A V I σ κ} {base : List (Net L A)} {s : Loop L A V σ κ} {v : VLoop L A V σ κ}
    (h : Rel cfg base s v) : s.traj.map (fun s => s.getActs cfg.labelCodec cfg.valCodec) = obsHist cfg v.hist := by
  apply List.ext_getElem?
  intro i
  rw [List.getElem?_map, obsHist, List.getElem?_mapIdx]
  cases hs : s.traj[i]? with
  | none =>
    have : v.hist[i]? = none := by
      rw [List.getElem?_eq_none_iff] at hs ⊢; rw [← h.len]; exact hs
    rw [this]; rfl
  | some st =>
    cases hv : v.hist[i]? with
    | none =>
      rw [List.getElem?_eq_none_iff, ← h.len, ← List.getElem?_eq_none_iff, hs] at hv; cases hv
    | some p => simp [(h.states i st p hs hv).acts]

/-- Adding the state of a new timestep keeps the relation. -/
theorem Rel.push {cfg : Config L A V I σ κ} {base : List (Net L A)} {s : Loop L A V σ κ} {v : VLoop L A V σ κ}
    (h : Rel cfg base s v) {d : Dict L V} {n : Net L A} {r : Nat} {ext : List (Net L A)} {memo : Memo V κ}
    {nmap : Option (Dict L (List L))} {u : σ} (hr : (s.world.heap ++ ext)[r]? = some n) :
    Rel cfg base ⟨s.t + 1, s.traj ++ [stOf cfg v.hist.length d r n], d, r, memo, nmap, ⟨s.world.heap ++ ext, u⟩⟩
      ⟨v.hist ++ [(d, n)], d, n, memo, nmap, u⟩ := by
  refine ⟨by simp [h.t], by simp, by simp [h.len], rfl, hr, rfl, rfl, rfl, ?_, ?_⟩
  · obtain ⟨e, he⟩ := h.base
    exact ⟨e ++ ext, by simp [he]⟩
  · intro i st p hs hv
    simp only at hs hv
    by_cases hi : i < v.hist.length
    · rw [List.getElem?_append_left (by rw [h.len]; exact hi)] at hs
      rw [List.getElem?_append_left hi] at hv
      exact (h.states i st p hs hv).extend
    · have hlt := (List.getElem?_eq_some_iff.1 hv).1
      simp only [List.length_append, List.length_singleton] at hlt
      have hi' : i = v.hist.length := by omega
      subst hi'
      rw [List.getElem?_append_right (by simp)] at hv
      rw [List.getElem?_append_right (by rw [h.len]; simp)] at hs
      simp only [Nat.sub_self, h.len, List.getElem?_cons_zero, Option.some.injEq] at hs hv
      subst hs hv
      exact represents_stOf cfg _ _ _ _ _ hr

theorem evolveStep_refines {cfg : Config L A V I σ κ} (hs : cfg.Safe) (hp : cfg.PackOk) (ks : KeySpec L A V I κ)
    (inp : Inp I) {base : List (Net L A)} {s : Loop L A V σ κ} {v : VLoop L A V σ κ} (h : Rel cfg base s v) :
    match vstep cfg ks inp v with
    | .error e => evolveStep cfg ks inp s = .error e
    | .ok v' => ∃ s', evolveStep cfg ks inp s = .ok s' ∧ Rel cfg base s' v' := by
  have hi : v.hist.length ≠ 0 := fun e => h.pos (List.length_eq_zero_iff.1 e)
  unfold vstep evolveStep
  rw [pastActivities_eq, h.obs, h.t]
  cases hpast : pastV cfg (obsHist cfg v.hist) v.hist.length with
  | error e => rfl
  | ok past =>
    simp only
    rw [h.acts, h.memo, h.nmap]
    have hdn : s.world.deref s.prevNet = v.net := deref_eq h.net
    cases ho : cfg.order with
    | activitiesFirst =>
      simp only [hdn, h.user]
      cases hc : computeActs cfg ks v.hist.length inp v.acts v.net past v.nmap v.memo v.user with
      | error e => rfl
      | ok acc =>
        simp only
        rw [storeActs_stOf hp hi acc.curr (St.new cfg.compression) rfl rfl]
        simp only
        have ht := evolveTopology_refines hs v.hist.length acc.curr (w := { s.world with user := acc.user })
          (show ({ s.world with user := acc.user } : World L A σ).heap[s.prevNet]? = some v.net from h.net)
          acc.added acc.removed
        simp only at ht
        cases hq : topoV cfg v.hist.length acc.curr v.net acc.added acc.removed acc.user with
        | error e => simp only [hq] at ht; simp [ht]
        | ok q =>
          obtain ⟨n, u⟩ := q
          simp only [hq] at ht
          obtain ⟨r, ext, e1, e2⟩ := ht
          simp only [e1]
          rw [storeNet_stOf hp hi (w := ⟨s.world.heap ++ ext, u⟩) e2 _ rfl rfl]
          simp only
          have hd2 : World.deref (⟨s.world.heap ++ ext, u⟩ : World L A σ) r = n := deref_eq e2
          rw [hd2]
          refine ⟨_, rfl, ?_⟩
          have := h.push (d := acc.curr) (memo := acc.memo) (u := u) (nmap := if acc.added.isEmpty && acc.removed.isEmpty
            then v.nmap else some (neighbourhoodMap n)) e2
          rw [h.t] at this
          exact this
    | topologyFirst =>
      simp only
      have ht := evolveTopology_refines hs v.hist.length v.acts h.net [] []
      rw [h.user] at ht
      cases hq : topoV cfg v.hist.length v.acts v.net [] [] v.user with
      | error e => simp only [hq] at ht; simp [ht]
      | ok q =>
        obtain ⟨n, u⟩ := q
        simp only [hq] at ht
        obtain ⟨r, ext, e1, e2⟩ := ht
        simp only [e1]
        rw [storeNet_stOf hp hi (w := ⟨s.world.heap ++ ext, u⟩) e2 _ rfl rfl]
        simp only
        have hd2 : World.deref (⟨s.world.heap ++ ext, u⟩ : World L A σ) r = n := deref_eq e2
        rw [hd2]
        cases hc : computeActs cfg ks v.hist.length inp v.acts n past v.nmap v.memo u with
        | error e => rfl
        | ok acc =>
          simp only
          rw [storeActs_stOf hp hi acc.curr _ rfl rfl]
          refine ⟨_, rfl, ?_⟩
          have := h.push (d := acc.curr) (memo := acc.memo) (u := acc.user) (nmap := v.nmap) e2
          rw [h.t] at this
          exact this
    | synchronous =>
      simp only
      have ht := evolveTopology_refines hs v.hist.length v.acts h.net [] []
      rw [h.user] at ht
      cases hq : topoV cfg v.hist.length v.acts v.net [] [] v.user with
      | error e => simp only [hq] at ht; simp [ht]
      | ok q =>
        obtain ⟨n, u⟩ := q
        simp only [hq] at ht
        obtain ⟨r, ext, e1, e2⟩ := ht
        simp only [e1]
        rw [storeNet_stOf hp hi (w := ⟨s.world.heap ++ ext, u⟩) e2 _ rfl rfl]
        simp only
        have hlt : s.prevNet < s.world.heap.length := (List.getElem?_eq_some_iff.1 h.net).1
        have hd2 : World.deref (⟨s.world.heap ++ ext, u⟩ : World L A σ) s.prevNet = v.net :=
          deref_eq (by simp only [List.getElem?_append_left hlt]; exact h.net)
        rw [hd2]
        cases hc : computeActs cfg ks v.hist.length inp v.acts v.net past v.nmap v.memo u with
        | error e => rfl
        | ok acc =>
          simp only
          rw [storeActs_stOf hp hi acc.curr _ rfl rfl]
          refine ⟨_, rfl, ?_⟩
          have := h.push (d := acc.curr) (memo := acc.memo) (u := acc.user) (nmap := v.nmap) e2
          rw [h.t] at this
          exact this

theorem Rel.withUser {cfg : Config L A V I σ κ} {base : List (Net L A)} {s : Loop L A V σ κ} {v : VLoop L A V σ κ}
    (h : Rel cfg base s v) (u : σ) :
    Rel cfg base { s with world := { s.world with user := u } } { v with user := u } :=
  ⟨h.t, h.pos, h.len, h.acts, h.net, h.memo, h.nmap, rfl, h.base, h.states⟩

theorem evolveLoop_refines {cfg : Config L A V I σ κ} (hs : cfg.Safe) (hp : cfg.PackOk) (ks : KeySpec L A V I κ)
    (fuel : Nat) {base : List (Net L A)} {s : Loop L A V σ κ} {v : VLoop L A V σ κ} (h : Rel cfg base s v) :
    match vloop cfg ks fuel v with
    | .error e => evolveLoop cfg ks fuel s = .error e
    | .ok v' => ∃ s', evolveLoop cfg ks fuel s = .ok s' ∧ Rel cfg base s' v' := by
  induction fuel generalizing s v with
  | zero => simp [vloop, evolveLoop]
  | succ fuel ih =>
    unfold vloop evolveLoop
    rw [h.acts, deref_eq h.net, h.user, h.t]
    cases hc : callInput cfg.input v.hist.length v.acts v.net v.user with
    | error e => rfl
    | ok q =>
      obtain ⟨oi, u⟩ := q
      cases oi with
      | none =>
        simp only
        refine ⟨_, rfl, ?_⟩
        have := h.withUser u
        rwa [h.t, h.acts] at this
      | some inp =>
        simp only
        have hstep := evolveStep_refines hs hp ks inp (h.withUser u)
        cases hv : vstep cfg ks inp { v with user := u } with
        | error e => simp only [hv] at hstep; rw [h.t, h.acts] at hstep; simp [hstep]
        | ok v' =>
          simp only [hv] at hstep
          obtain ⟨s', e1, e2⟩ := hstep
          rw [h.t, h.acts] at e1
          simp only [e1]
          exact ih e2

theorem evolveInit_refines {cfg : Config L A V I σ κ} (hp : cfg.PackOk) (d : Dict L V) {r : Nat} {w : World L A σ}
    {n : Net L A} (hr : w.heap[r]? = some n) :
    match vcheck cfg d n with
    | .error e => evolveInit cfg d r w = .error e
    | .ok () => ∃ s, evolveInit cfg d r w = .ok s ∧ Rel cfg w.heap s (vinit cfg d n w.user) := by
  have key : ∃ s, (match (St.new cfg.compression : St L A V).setActs cfg.labelCodec cfg.valCodec d with
      | .error e => (.error e : Except Err (Loop L A V σ κ))
      | .ok s1 => match s1.setNet cfg.labelCodec cfg.attrCodec r n with
        | .error e => .error e
        | .ok s2 =>
          .ok ⟨1, [s2], d, r, [], if cfg.topology.isSome then none else some (neighbourhoodMap n), w⟩) = .ok s ∧
      Rel cfg w.heap s (vinit cfg d n w.user) := by
    rw [store_acts hp _ rfl]
    simp only
    have hcomp : (if d.isEmpty = true then (St.new cfg.compression : St L A V) else
        { (St.new cfg.compression : St L A V) with acts := some d }).compression = cfg.compression := by split <;> rfl
    rw [store_net hp _ hcomp]
    simp only
    refine ⟨_, rfl, ?_⟩
    have hst : (if n.nodes.isEmpty = true then (if d.isEmpty = true then (St.new cfg.compression : St L A V) else
        { (St.new cfg.compression : St L A V) with acts := some d }) else
        { (if d.isEmpty = true then (St.new cfg.compression : St L A V) else
          { (St.new cfg.compression : St L A V) with acts := some d }) with
          net := some (if cfg.compression = true then .packed n else .ref r) }) = stOf cfg 0 d r n := by
      unfold stOf actsOf netOf
      by_cases h1 : n.nodes.isEmpty = true <;> by_cases h2 : d.isEmpty = true <;> simp [h1, h2, St.new]
    rw [hst]
    refine ⟨rfl, by simp [vinit], rfl, rfl, hr, rfl, rfl, rfl, ⟨[], by simp⟩, ?_⟩
    intro i st p hs hv
    cases i with
    | zero =>
      simp only [vinit, List.getElem?_cons_zero, Option.some.injEq] at hs hv
      subst hs hv
      exact represents_stOf cfg _ _ _ _ _ hr
    | succ i => simp at hs
  unfold vcheck evolveInit
  rw [deref_eq hr]
  cases hin : cfg.input with
  | neither => rfl
  | timesteps k =>
    by_cases hm : d.length ≠ n.size ∧ cfg.rule.isSome = true
    · simp [hm]
    · simp only [hm, if_false]; exact key
  | list items =>
    by_cases hm : d.length ≠ n.size ∧ cfg.rule.isSome = true
    · simp [hm]
    · simp only [hm, if_false]; exact key
  | fn f =>
    by_cases hm : d.length ≠ n.size ∧ cfg.rule.isSome = true
    · simp [hm]
    · simp only [hm, if_false]; exact key

/-- `evolve` computes what the value-level loop computes, only extends the heap, and its states show the history. -/
theorem evolve_refines {cfg : Config L A V I σ κ} (hs : cfg.Safe) (hp : cfg.PackOk) (fuel : Nat)
    (init : Option (Conds L V)) {r : Nat} {w : World L A σ} {n : Net L A} (hr : w.heap[r]? = some n) :
    match vevolve fuel cfg init n w.user with
    | .error e => evolve fuel cfg init r w = .error e
    | .ok v => ∃ states ext, evolve fuel cfg init r w = .ok ⟨states, ⟨w.heap ++ ext, v.user⟩⟩ ∧
        states.length = v.hist.length ∧
        ∀ i st p, states[i]? = some st → v.hist[i]? = some p → Represents cfg (w.heap ++ ext) i st p.1 p.2 := by
  have h0 := evolveInit_refines hp (initDict cfg init) hr
  unfold vevolve evolve
  cases hc : vcheck cfg (initDict cfg init) n with
  | error e => simp only [hc] at h0; simp [h0]
  | ok x =>
    simp only [hc] at h0
    obtain ⟨s, e1, e2⟩ := h0
    simp only [e1, deref_eq hr]
    have hl := evolveLoop_refines hs hp (effectiveKey cfg n) fuel e2
    cases hv : vloop cfg (effectiveKey cfg n) fuel (vinit cfg (initDict cfg init) n w.user) with
    | error e => simp only [hv] at hl; simp [hl]
    | ok v =>
      simp only [hv] at hl
      obtain ⟨s', e3, e4⟩ := hl
      simp only [e3]
      obtain ⟨ext, hext⟩ := e4.base
      refine ⟨s'.traj, ext, ?_, e4.len, ?_⟩
      · congr 2
        rw [← hext, ← e4.user]
      · rw [← hext]; exact e4.states

end
end Verif
