import Verif.Proofs.EvolutionTotal
/-! # Memoization -/

namespace Verif
section
variable {L A V I σ κ : Type} [DecidableEq L] [DecidableEq V] [DecidableEq κ]

/-! ## Keys -/

theorem get?_foldl_counter (vs : List V) (d : Dict V Nat) (v : V) :
    Dict.get? (vs.foldl (fun d v => d.set v ((d.get? v).getD 0 + 1)) d) v =
    if vs.count v = 0 then d.get? v else some ((d.get? v).getD 0 + vs.count v) := by
  induction vs generalizing d with
  | nil => simp
  | cons a vs ih =>
    rw [List.foldl_cons, ih, Dict.get?_set, List.count_cons]
    by_cases ha : a = v
    · subst ha
      by_cases hc : vs.count a = 0
      · simp [hc]
      · simp [hc]; omega
    · simp [ha]

theorem get?_counter (vs : List V) (v : V) :
    (counter vs).get? v = if vs.count v = 0 then none else some (vs.count v) := by
  unfold counter
  rw [get?_foldl_counter]
  simp

theorem nodup_counter (vs : List V) : (counter vs).keys.Nodup := by
  unfold counter
  have : ∀ (d : Dict V Nat), d.keys.Nodup →
      (Dict.keys (vs.foldl (fun d v => d.set v ((d.get? v).getD 0 + 1)) d)).Nodup := by
    induction vs with
    | nil => exact fun d h => h
    | cons a vs ih => exact fun d h => ih _ (Dict.nodup_keys_set h _ _)
  exact this [] (by simp)

theorem mem_counter (vs : List V) (v : V) (k : Nat) : (v, k) ∈ counter vs ↔ vs.count v = k ∧ k ≠ 0 := by
  rw [← Dict.get?_eq_some_iff (nodup_counter vs), get?_counter]
  by_cases h : vs.count v = 0
  · simp only [h, if_true]
    constructor
    · intro h; cases h
    · rintro ⟨h1, h2⟩; exact absurd h1.symm h2
  · simp only [h, if_false, Option.some.injEq]
    constructor
    · intro hk; exact ⟨hk, by omega⟩
    · exact fun hk => hk.1

omit [DecidableEq L] [DecidableEq κ] in
theorem counts_eq_iff_perm (a b : List V) :
    (MemoKey.eq (.counts (counter a) : MemoKey V Unit) (.counts (counter b)) = true) ↔ a.Perm b := by
  simp only [MemoKey.eq, Bool.and_eq_true, List.all_eq_true, List.contains_iff_mem]
  constructor
  · rintro ⟨h1, h2⟩
    rw [List.perm_iff_count]
    intro v
    by_cases ha : a.count v = 0
    · by_cases hb : b.count v = 0
      · omega
      · have := h2 (v, b.count v) ((mem_counter b v _).2 ⟨rfl, hb⟩)
        exact ((mem_counter a v _).1 this).1
    · have := h1 (v, a.count v) ((mem_counter a v _).2 ⟨rfl, ha⟩)
      exact ((mem_counter b v _).1 this).1.symm
  · intro h
    rw [List.perm_iff_count] at h
    constructor
    · rintro ⟨v, k⟩ hm
      rw [mem_counter] at hm ⊢
      rw [← h v]; exact hm
    · rintro ⟨v, k⟩ hm
      rw [mem_counter] at hm ⊢
      rw [h v]; exact hm

/-! ## Transparency -/

/-- Results related by `R`, or equal errors. -/
inductive ExRel {α β : Type} (R : α → β → Prop) : Except Err α → Except Err β → Prop where
  | ok {a b} : R a b → ExRel R (.ok a) (.ok b)
  | error (e) : ExRel R (.error e) (.error e)

theorem ExRel.foldlM {α β γ : Type} {R : β → γ → Prop} {f : β → α → Except Err β} {g : γ → α → Except Err γ}
    (h : ∀ b c x, R b c → ExRel R (f b x) (g c x)) (l : List α) (b : β) (c : γ) (hbc : R b c) :
    ExRel R (l.foldlM f b) (l.foldlM g c) := by
  induction l generalizing b c with
  | nil => exact .ok hbc
  | cons x l ih =>
    simp only [List.foldlM, bind, Except.bind]
    have := h b c x hbc
    cases hf : f b x with
    | error e =>
      rw [hf] at this
      cases hg : g c x with
      | error e' => rw [hg] at this; cases this; exact .error _
      | ok c' => rw [hg] at this; cases this
    | ok b' =>
      rw [hf] at this
      cases hg : g c x with
      | error e' => rw [hg] at this; cases this
      | ok c' => rw [hg] at this; cases this with | ok hr => exact ih _ _ hr

/-- The rule's result depends only on the key. -/
def KeyCompatible (ks : KeySpec L A V I κ) (G : NodeCtx L A V I → Except Err V) : Prop :=
  ∀ c c', MemoKey.eq (toKey ks c) (toKey ks c') = true → G c = G c'

/-- Every memoized value is the rule's value for a context with that key. -/
def MemoInv (ks : KeySpec L A V I κ) (G : NodeCtx L A V I → Except Err V) (m : Memo V κ) : Prop :=
  ∀ p ∈ m, ∃ c, p.1 = toKey ks c ∧ G c = .ok p.2

/-- Equal up to the memo table. -/
structure AccRel (ks : KeySpec L A V I κ) (G : NodeCtx L A V I → Except Err V) (a b : Acc L A V σ κ) : Prop where
  curr : a.curr = b.curr
  added : a.added = b.added
  removed : a.removed = b.removed
  user : a.user = b.user
  memo : MemoInv ks G a.memo

theorem applyRule_memo {cfg cfg0 : Config L A V I σ κ} (h0 : cfg0 = { cfg with memoize := false }) {ks : KeySpec L A V I κ} {G : NodeCtx L A V I → Except Err V}
    (hm : cfg.memoize = true) (hk : KeyCompatible ks G) (ctx : NodeCtx L A V I) (memo memo' : Memo V κ) (u : σ)
    (hi : MemoInv ks G memo) :
    ExRel (fun a b => a.1 = b.1 ∧ a.2.2 = b.2.2 ∧ MemoInv ks G a.2.1)
      (applyRule cfg ks (pureRule G) ctx memo u)
      (applyRule cfg0 ks (pureRule G) ctx memo' u) := by
  unfold applyRule
  have h01 : cfg0.memoize = false := by rw [h0]
  simp only [hm, h01, if_true, Bool.false_eq_true, if_false]
  cases hf : memo.find (toKey ks ctx) with
  | none =>
    simp only
    cases hg : G ctx with
    | error e => simp only [pureRule, hg]; exact .error e
    | ok v =>
      simp only [pureRule, hg]
      refine .ok ⟨rfl, rfl, ?_⟩
      intro p hp
      rcases List.mem_append.1 hp with hp | hp
      · exact hi p hp
      · simp only [List.mem_singleton] at hp
        subst hp
        exact ⟨ctx, rfl, hg⟩
  | some v =>
    simp only
    unfold Memo.find at hf
    obtain ⟨p, hp1, rfl⟩ := Option.map_eq_some_iff.1 hf
    have hp2 := List.find?_some hp1
    obtain ⟨c, hc1, hc2⟩ := hi p (List.mem_of_find?_eq_some hp1)
    rw [hc1] at hp2
    have := hk c ctx hp2
    rw [hc2] at this
    simp only [pureRule, ← this]
    exact .ok ⟨rfl, rfl, hi⟩

theorem nodeStep_memo {cfg cfg0 : Config L A V I σ κ} (h0 : cfg0 = { cfg with memoize := false }) {ks : KeySpec L A V I κ} {G : NodeCtx L A V I → Except Err V}
    (hm : cfg.memoize = true) (hk : KeyCompatible ks G) (t : Nat) (inp : Inp I) (prev : Dict L V) (n : Net L A)
    (past : Option (List (Option (Dict L V)))) (nmap : Option (Dict L (List L))) (a b : Acc L A V σ κ) (x : L)
    (h : AccRel ks G a b) :
    ExRel (AccRel ks G) (nodeStep cfg ks (pureRule G) t inp prev n past nmap a x)
      (nodeStep cfg0 ks (pureRule G) t inp prev n past nmap b x) := by
  unfold nodeStep
  have e1 : mkCtx cfg0 t inp prev n past nmap x = mkCtx cfg t inp prev n past nmap x := by rw [h0]; rfl
  have e2 : ∀ nin curr u, perturb cfg0 t x nin curr u = perturb cfg t x nin curr u :=
    fun _ _ _ => by rw [h0]; rfl
  rw [e1]
  cases mkCtx cfg t inp prev n past nmap x with
  | error e => exact .error e
  | ok ctx =>
    simp only
    have hr := applyRule_memo h0 hm hk ctx a.memo b.memo a.user h.memo
    rw [← h.user]
    cases ha : applyRule cfg ks (pureRule G) ctx a.memo a.user with
    | error e =>
      rw [ha] at hr
      cases hb : applyRule cfg0 ks (pureRule G) ctx b.memo a.user with
      | error e' => rw [hb] at hr; cases hr; exact .error _
      | ok q => rw [hb] at hr; cases hr
    | ok p =>
      rw [ha] at hr
      cases hb : applyRule cfg0 ks (pureRule G) ctx b.memo a.user with
      | error e' => rw [hb] at hr; cases hr
      | ok q =>
        rw [hb] at hr
        cases hr with
        | ok hr =>
          obtain ⟨o, m, u⟩ := p
          obtain ⟨o', m', u'⟩ := q
          obtain ⟨h1, h2, h3⟩ := hr
          simp only at h1 h2 h3
          subst h1 h2
          simp only
          rw [e2, h.curr]
          cases hp : perturb cfg t x ctx.input (if x ∈ o.removed then b.curr else b.curr.set x o.value) u with
          | error e => exact .error e
          | ok r => exact .ok ⟨rfl, by rw [h.added], by rw [h.removed], rfl, h3⟩

theorem computeActs_memo {cfg cfg0 : Config L A V I σ κ} (h0 : cfg0 = { cfg with memoize := false }) {ks : KeySpec L A V I κ} {G : NodeCtx L A V I → Except Err V}
    (hm : cfg.memoize = true) (hG : cfg.PureRule G) (hk : KeyCompatible ks G) (t : Nat) (inp : Inp I) (prev : Dict L V)
    (n : Net L A) (past : Option (List (Option (Dict L V)))) (nmap : Option (Dict L (List L))) (memo memo' : Memo V κ)
    (u : σ) (hi : MemoInv ks G memo) :
    ExRel (AccRel ks G) (computeActs cfg ks t inp prev n past nmap memo u)
      (computeActs cfg0 ks t inp prev n past nmap memo' u) := by
  unfold computeActs doActivityRule
  unfold Config.PureRule at hG
  have hG0 : cfg0.rule = some (pureRule G) := by rw [h0]; exact hG
  simp only [hG, hG0]
  have hf := ExRel.foldlM (nodeStep_memo (σ := σ) h0 hm hk t inp prev n past nmap) n.labels
    ⟨[], [], [], memo, u⟩ ⟨[], [], [], memo', u⟩ ⟨rfl, rfl, rfl, rfl, hi⟩
  revert hf
  cases n.labels.foldlM (nodeStep cfg ks (pureRule G) t inp prev n past nmap) ⟨[], [], [], memo, u⟩ with
  | error e =>
    cases n.labels.foldlM (nodeStep cfg0 ks (pureRule G) t inp prev n past nmap) ⟨[], [], [], memo', u⟩ with
    | error e' => intro hf; cases hf; exact .error _
    | ok q => intro hf; cases hf
  | ok p =>
    cases n.labels.foldlM (nodeStep cfg0 ks (pureRule G) t inp prev n past nmap) ⟨[], [], [], memo', u⟩ with
    | error e' => intro hf; cases hf
    | ok q =>
      intro hf
      cases hf with
      | ok h => exact .ok ⟨by simp only [h.curr, h.added], h.added, h.removed, h.user, h.memo⟩

/-- Equal up to the memo table. -/
structure LoopRel (ks : KeySpec L A V I κ) (G : NodeCtx L A V I → Except Err V) (a b : Loop L A V σ κ) : Prop where
  t : a.t = b.t
  traj : a.traj = b.traj
  prevActs : a.prevActs = b.prevActs
  prevNet : a.prevNet = b.prevNet
  nmap : a.nmap = b.nmap
  world : a.world = b.world
  memo : MemoInv ks G a.memo

theorem evolveStep_memo {cfg cfg0 : Config L A V I σ κ} (h0 : cfg0 = { cfg with memoize := false }) {ks : KeySpec L A V I κ} {G : NodeCtx L A V I → Except Err V}
    (hm : cfg.memoize = true) (hG : cfg.PureRule G) (hk : KeyCompatible ks G) (inp : Inp I) (a b : Loop L A V σ κ)
    (h : LoopRel ks G a b) :
    ExRel (LoopRel ks G) (evolveStep cfg ks inp a) (evolveStep cfg0 ks inp b) := by
  obtain ⟨t, traj, pa, pn, memo, nmap, w⟩ := a
  obtain ⟨t', traj', pa', pn', memo', nmap', w'⟩ := b
  obtain ⟨h1, h2, h3, h4, h5, h6, h7⟩ := h
  simp only at h1 h2 h3 h4 h5 h6 h7
  subst h1 h2 h3 h4 h5 h6
  have e1 : ∀ traj t, pastActivities cfg0 traj t = pastActivities cfg traj t := by
    intro traj t
    unfold pastActivities
    have hp : cfg0.past = cfg.past := by rw [h0]
    rw [hp]
    have : ∀ k τ acc, pastLoop cfg0 traj k τ acc = pastLoop cfg traj k τ acc := by
      intro k
      induction k with
      | zero => intros; rfl
      | succ k ih =>
        intro τ acc
        unfold pastLoop
        have : pastEntry cfg0 traj τ = pastEntry cfg traj τ := by rw [h0]; rfl
        rw [this]
        cases pastEntry cfg traj τ with
        | error e => rfl
        | ok d => exact ih _ _
    simp only [this]
  have e2 : ∀ t acts r ad rm w, evolveTopology cfg0 t acts r ad rm w =
      evolveTopology cfg t acts r ad rm w := fun _ _ _ _ _ _ => by rw [h0]; rfl
  have e3 : ∀ st c, storeActs cfg0 st c = storeActs cfg st c := fun _ _ => by rw [h0]; rfl
  have e4 : ∀ st r (w : World L A σ), storeNet cfg0 st r w = storeNet cfg st r w :=
    fun _ _ _ => by rw [h0]; rfl
  have e5 : cfg0.order = cfg.order := by rw [h0]
  have e6 : cfg0.compression = cfg.compression := by rw [h0]
  unfold evolveStep
  simp only [e1, e2, e3, e4, e5, e6]
  cases pastActivities cfg traj t with
  | error e => exact .error e
  | ok past =>
    simp only
    cases ho : cfg.order with
    | activitiesFirst =>
      simp only
      have hc := computeActs_memo h0 hm hG hk t inp pa (w.deref pn) past nmap memo memo' w.user h7
      generalize computeActs cfg ks t inp pa (w.deref pn) past nmap memo w.user = x at hc ⊢
      generalize computeActs cfg0 ks t inp pa (w.deref pn) past nmap memo' w.user = y at hc ⊢
      cases hc with
      | error e => exact .error e
      | @ok acc acc' hr =>
        obtain ⟨c, ad, rm, m, u⟩ := acc
        obtain ⟨c', ad', rm', m', u'⟩ := acc'
        obtain ⟨g1, g2, g3, g4, g5⟩ := hr
        simp only at g1 g2 g3 g4 g5
        subst g1 g2 g3 g4
        simp only
        cases storeActs cfg (St.new cfg.compression) c with
        | error e => exact .error e
        | ok st1 =>
          simp only
          cases evolveTopology cfg t c pn ad rm { w with user := u } with
          | error e => exact .error e
          | ok p =>
            simp only
            cases storeNet cfg st1 p.1 p.2 with
            | error e => exact .error e
            | ok st2 => exact .ok ⟨rfl, rfl, rfl, rfl, rfl, rfl, g5⟩
    | topologyFirst =>
      simp only
      cases evolveTopology cfg t pa pn [] [] w with
      | error e => exact .error e
      | ok p =>
        simp only
        cases storeNet cfg (St.new cfg.compression) p.1 p.2 with
        | error e => exact .error e
        | ok st1 =>
          simp only
          have hc := computeActs_memo h0 hm hG hk t inp pa (p.2.deref p.1) past nmap memo memo' p.2.user h7
          generalize computeActs cfg ks t inp pa (p.2.deref p.1) past nmap memo p.2.user = x at hc ⊢
          generalize computeActs cfg0 ks t inp pa (p.2.deref p.1) past nmap memo' p.2.user = y at hc ⊢
          cases hc with
          | error e => exact .error e
          | @ok acc acc' hr =>
            obtain ⟨c, ad, rm, m, u⟩ := acc
            obtain ⟨c', ad', rm', m', u'⟩ := acc'
            obtain ⟨g1, g2, g3, g4, g5⟩ := hr
            simp only at g1 g2 g3 g4 g5
            subst g1 g2 g3 g4
            simp only
            cases storeActs cfg st1 c with
            | error e => exact .error e
            | ok st2 => exact .ok ⟨rfl, rfl, rfl, rfl, rfl, rfl, g5⟩
    | synchronous =>
      simp only
      cases evolveTopology cfg t pa pn [] [] w with
      | error e => exact .error e
      | ok p =>
        simp only
        cases storeNet cfg (St.new cfg.compression) p.1 p.2 with
        | error e => exact .error e
        | ok st1 =>
          simp only
          have hc := computeActs_memo h0 hm hG hk t inp pa (p.2.deref pn) past nmap memo memo' p.2.user h7
          generalize computeActs cfg ks t inp pa (p.2.deref pn) past nmap memo p.2.user = x at hc ⊢
          generalize computeActs cfg0 ks t inp pa (p.2.deref pn) past nmap memo' p.2.user = y at hc ⊢
          cases hc with
          | error e => exact .error e
          | @ok acc acc' hr =>
            obtain ⟨c, ad, rm, m, u⟩ := acc
            obtain ⟨c', ad', rm', m', u'⟩ := acc'
            obtain ⟨g1, g2, g3, g4, g5⟩ := hr
            simp only at g1 g2 g3 g4 g5
            subst g1 g2 g3 g4
            simp only
            cases storeActs cfg st1 c with
            | error e => exact .error e
            | ok st2 => exact .ok ⟨rfl, rfl, rfl, rfl, rfl, rfl, g5⟩

theorem evolveLoop_memo {cfg cfg0 : Config L A V I σ κ} (h0 : cfg0 = { cfg with memoize := false }) {ks : KeySpec L A V I κ} {G : NodeCtx L A V I → Except Err V}
    (hm : cfg.memoize = true) (hG : cfg.PureRule G) (hk : KeyCompatible ks G) (fuel : Nat) (a b : Loop L A V σ κ)
    (h : LoopRel ks G a b) :
    ExRel (LoopRel ks G) (evolveLoop cfg ks fuel a) (evolveLoop cfg0 ks fuel b) := by
  induction fuel generalizing a b with
  | zero => exact .error _
  | succ fuel ih =>
    unfold evolveLoop
    have e1 : cfg0.input = cfg.input := by rw [h0]
    have e2 : callInput cfg0.input b.t b.prevActs (b.world.deref b.prevNet) b.world.user =
        callInput cfg.input a.t a.prevActs (a.world.deref a.prevNet) a.world.user := by
      rw [e1, h.t, h.prevActs, h.prevNet, h.world]
    rw [e2]
    cases callInput cfg.input a.t a.prevActs (a.world.deref a.prevNet) a.world.user with
    | error e => exact .error e
    | ok p =>
      obtain ⟨i, u⟩ := p
      cases i with
      | none => exact .ok ⟨h.t, h.traj, h.prevActs, h.prevNet, h.nmap, by rw [h.world], h.memo⟩
      | some inp =>
        simp only
        have hs := evolveStep_memo h0 hm hG hk inp { a with world := { a.world with user := u } }
          { b with world := { b.world with user := u } }
          ⟨h.t, h.traj, h.prevActs, h.prevNet, h.nmap, by simp only [h.world], h.memo⟩
        generalize evolveStep cfg ks inp _ = x at hs ⊢
        generalize evolveStep cfg0 ks inp _ = y at hs ⊢
        cases hs with
        | error e => exact .error e
        | ok hr => exact ih _ _ hr

/-- Memoization does not change the result of `evolve`. -/
theorem evolve_memo {cfg : Config L A V I σ κ} {G : NodeCtx L A V I → Except Err V} (hm : cfg.memoize = true)
    (hG : cfg.PureRule G) (fuel : Nat) (init : Option (Conds L V)) (r : Nat) (w : World L A σ)
    (hk : KeyCompatible (effectiveKey cfg (w.deref r)) G) :
    evolve fuel cfg init r w = evolve fuel { cfg with memoize := false } init r w := by
  unfold evolve
  have e1 : initDict { cfg with memoize := false } init = initDict cfg init := by cases init <;> rfl
  have e2 : ∀ d, evolveInit { cfg with memoize := false } d r w = evolveInit cfg d r w := fun _ => rfl
  have e3 : effectiveKey { cfg with memoize := false } (w.deref r) = effectiveKey cfg (w.deref r) := rfl
  rw [e1, e2, e3]
  cases hi : evolveInit cfg (initDict cfg init) r w with
  | error e => rfl
  | ok s =>
    simp only
    have hmi : MemoInv (effectiveKey cfg (w.deref r)) G s.memo := by
      have : s.memo = [] := by
        unfold evolveInit at hi
        split at hi
        · cases hi
        · split at hi
          · cases hi
          · split at hi
            · cases hi
            · split at hi
              · cases hi
              · simp only [Except.ok.injEq] at hi
                rw [← hi]
      rw [this]
      intro p hp; cases hp
    have h := evolveLoop_memo (cfg := cfg) rfl hm hG hk fuel s s ⟨rfl, rfl, rfl, rfl, rfl, rfl, hmi⟩
    generalize evolveLoop cfg _ fuel s = x at h ⊢
    generalize evolveLoop { cfg with memoize := false } _ fuel s = y at h ⊢
    cases h with
    | error e => rfl
    | ok hr => simp only [hr.traj, hr.world]

end
end Verif
