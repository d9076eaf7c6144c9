import Verif.Proofs.Memo
/-! # Two rules that correspond step by step give the same run, on a fixed network -/

namespace Verif
section
variable {L A V I σ₁ σ₂ κ : Type} [DecidableEq L] [DecidableEq V] [DecidableEq κ]

/-- The configurations differ only in the rule, the input, the perturbation and the user's state, and correspond step by
step on the network `n`: `S t done` relates the user's states during timestep `t` when the nodes `done` were visited. -/
structure SimSpec (cfg₁ : Config L A V I σ₁ κ) (cfg₂ : Config L A V I σ₂ κ)
    (rule₁ : NodeCtx L A V I → σ₁ → Except Err (RuleOut L A V × σ₁))
    (rule₂ : NodeCtx L A V I → σ₂ → Except Err (RuleOut L A V × σ₂)) (n : Net L A)
    (S : Nat → List L → σ₁ → σ₂ → Prop) : Prop where
  ofRule₁ : cfg₁.rule = some rule₁
  ofRule₂ : cfg₂.rule = some rule₂
  top₁ : cfg₁.topology = none
  top₂ : cfg₂.topology = none
  memo₁ : cfg₁.memoize = false
  memo₂ : cfg₂.memoize = false
  past : cfg₁.past = cfg₂.past
  order : cfg₁.order = cfg₂.order
  compression : cfg₁.compression = cfg₂.compression
  persistActs : cfg₁.persistActs = cfg₂.persistActs
  persistNet : cfg₁.persistNet = cfg₂.persistNet
  natLabel : cfg₁.natLabel = cfg₂.natLabel
  labelIdx : cfg₁.labelIdx = cfg₂.labelIdx
  labelCodec : cfg₁.labelCodec = cfg₂.labelCodec
  attrCodec : cfg₁.attrCodec = cfg₂.attrCodec
  valCodec : cfg₁.valCodec = cfg₂.valCodec
  neither : cfg₁.input = .neither ↔ cfg₂.input = .neither
  input : ∀ t acts u₁ u₂, S t [] u₁ u₂ → ExRel (fun a b => a.1 = b.1 ∧ S t [] a.2 b.2)
    (callInput cfg₁.input t acts n u₁) (callInput cfg₂.input t acts n u₂)
  node : ∀ t done x rest (ctx : NodeCtx L A V I) u₁ u₂, n.labels = done ++ x :: rest → ctx.node = x → ctx.t = t →
    S t done u₁ u₂ → ExRel (fun a b => a.1 = b.1 ∧ a.1.added = [] ∧ a.1.removed = [] ∧ S t (done ++ [x]) a.2 b.2)
      (rule₁ ctx u₁) (rule₂ ctx u₂)
  pert : ∀ t done x nin curr u₁ u₂, S t done u₁ u₂ → ExRel (fun a b => a.1 = b.1 ∧ S t done a.2 b.2)
    (perturb cfg₁ t x nin curr u₁) (perturb cfg₂ t x nin curr u₂)
  post : ∀ t u₁ u₂, S t n.labels u₁ u₂ → S (t + 1) [] u₁ u₂

variable {cfg₁ : Config L A V I σ₁ κ} {cfg₂ : Config L A V I σ₂ κ}
  {rule₁ : NodeCtx L A V I → σ₁ → Except Err (RuleOut L A V × σ₁)}
  {rule₂ : NodeCtx L A V I → σ₂ → Except Err (RuleOut L A V × σ₂)} {n : Net L A}
  {S : Nat → List L → σ₁ → σ₂ → Prop}

theorem mkCtx_node_t {cfg : Config L A V I σ₁ κ} {t : Nat} {inp : Inp I} {prev : Dict L V} {n : Net L A}
    {past : Option (List (Option (Dict L V)))} {nmap : Option (Dict L (List L))} {x : L} {ctx : NodeCtx L A V I}
    (h : mkCtx cfg t inp prev n past nmap x = .ok ctx) : ctx.node = x ∧ ctx.t = t := by
  unfold mkCtx at h
  repeat (split at h; · cases h)
  cases h
  exact ⟨rfl, rfl⟩

/-- Equal accumulators up to the memo table, with related user states; without requests if `q`. -/
structure SimAcc (q : Prop) (R : σ₁ → σ₂ → Prop) (a : Acc L A V σ₁ κ) (b : Acc L A V σ₂ κ) : Prop where
  curr : a.curr = b.curr
  added : a.added = b.added
  removed : a.removed = b.removed
  quiet : q → a.added = [] ∧ a.removed = []
  user : R a.user b.user

/-- The loop over the nodes, with requests. -/
theorem nodes_sim (q : Prop) (hidx : cfg₁.labelIdx = cfg₂.labelIdx) (hm₁ : cfg₁.memoize = false)
    (hm₂ : cfg₂.memoize = false) (t : Nat) (R : List L → σ₁ → σ₂ → Prop)
    (hnode : ∀ done x rest (ctx : NodeCtx L A V I) u₁ u₂, n.labels = done ++ x :: rest → ctx.node = x → ctx.t = t →
      R done u₁ u₂ → ExRel (fun a b => a.1 = b.1 ∧ (q → a.1.added = [] ∧ a.1.removed = []) ∧ R (done ++ [x]) a.2 b.2)
        (rule₁ ctx u₁) (rule₂ ctx u₂))
    (hpert : ∀ done x nin curr u₁ u₂, R done u₁ u₂ → ExRel (fun a b => a.1 = b.1 ∧ R done a.2 b.2)
      (perturb cfg₁ t x nin curr u₁) (perturb cfg₂ t x nin curr u₂))
    (ks₁ ks₂ : KeySpec L A V I κ) (inp : Inp I) (prev : Dict L V) (past : Option (List (Option (Dict L V))))
    (nmap : Option (Dict L (List L))) (rest : List L) :
    ∀ (done : List L) (a : Acc L A V σ₁ κ) (b : Acc L A V σ₂ κ), n.labels = done ++ rest → SimAcc q (R done) a b →
      ExRel (SimAcc q (R n.labels))
        (rest.foldlM (nodeStep cfg₁ ks₁ rule₁ t inp prev n past nmap) a)
        (rest.foldlM (nodeStep cfg₂ ks₂ rule₂ t inp prev n past nmap) b) := by
  induction rest with
  | nil =>
    intro done a b hl h1
    rw [List.append_nil] at hl
    exact .ok (by rw [hl]; exact h1)
  | cons x rest ih =>
    intro done a b hl h1
    simp only [List.foldlM, bind, Except.bind]
    have hstep : ExRel (SimAcc q (R (done ++ [x])))
        (nodeStep cfg₁ ks₁ rule₁ t inp prev n past nmap a x) (nodeStep cfg₂ ks₂ rule₂ t inp prev n past nmap b x) := by
      unfold nodeStep
      have hmk : mkCtx cfg₁ t inp prev n past nmap x = mkCtx cfg₂ t inp prev n past nmap x := by
        unfold mkCtx
        rw [hidx]
      rw [hmk]
      cases hc : mkCtx cfg₂ t inp prev n past nmap x with
      | error e => exact .error e
      | ok ctx =>
        obtain ⟨hx, ht⟩ := mkCtx_node_t hc
        have hn := hnode done x rest ctx a.user b.user hl hx ht h1.user
        simp only
        unfold applyRule
        simp only [hm₁, hm₂, Bool.false_eq_true, if_false]
        generalize rule₁ ctx a.user = p at hn ⊢
        generalize rule₂ ctx b.user = q at hn ⊢
        cases hn with
        | error e => exact .error e
        | @ok p q hr =>
          obtain ⟨o, u⟩ := p
          obtain ⟨o', u'⟩ := q
          obtain ⟨g1, g2, g3⟩ := hr
          simp only at g1 g2 g3
          subst g1
          simp only
          rw [h1.curr]
          have hp := hpert (done ++ [x]) x ctx.input (if x ∈ o.removed then b.curr else b.curr.set x o.value) u u' g3
          generalize perturb cfg₁ t x ctx.input (if x ∈ o.removed then b.curr else b.curr.set x o.value) u = p at hp ⊢
          generalize perturb cfg₂ t x ctx.input (if x ∈ o.removed then b.curr else b.curr.set x o.value) u' = q at hp ⊢
          cases hp with
          | error e => exact .error e
          | @ok p q hr =>
            refine .ok ⟨hr.1, by simp only [h1.added], by simp only [h1.removed], ?_, hr.2⟩
            intro hq
            simp only [(h1.quiet hq).1, (h1.quiet hq).2, (g2 hq).1, (g2 hq).2, List.append_nil, and_self]
    generalize nodeStep cfg₁ ks₁ rule₁ t inp prev n past nmap a x = p at hstep ⊢
    generalize nodeStep cfg₂ ks₂ rule₂ t inp prev n past nmap b x = q at hstep ⊢
    cases hstep with
    | error e => exact .error e
    | @ok p q hr => exact ih (done ++ [x]) p q (by rw [hl]; simp) hr

/-- One timestep, with requests. -/
theorem acts_sim (q : Prop) (hr₁ : cfg₁.rule = some rule₁) (hr₂ : cfg₂.rule = some rule₂)
    (hidx : cfg₁.labelIdx = cfg₂.labelIdx) (hm₁ : cfg₁.memoize = false)
    (hm₂ : cfg₂.memoize = false) (t : Nat) (R : List L → σ₁ → σ₂ → Prop)
    (hnode : ∀ done x rest (ctx : NodeCtx L A V I) u₁ u₂, n.labels = done ++ x :: rest → ctx.node = x → ctx.t = t →
      R done u₁ u₂ → ExRel (fun a b => a.1 = b.1 ∧ (q → a.1.added = [] ∧ a.1.removed = []) ∧ R (done ++ [x]) a.2 b.2)
        (rule₁ ctx u₁) (rule₂ ctx u₂))
    (hpert : ∀ done x nin curr u₁ u₂, R done u₁ u₂ → ExRel (fun a b => a.1 = b.1 ∧ R done a.2 b.2)
      (perturb cfg₁ t x nin curr u₁) (perturb cfg₂ t x nin curr u₂))
    (ks₁ ks₂ : KeySpec L A V I κ) (inp : Inp I) (prev : Dict L V) (past : Option (List (Option (Dict L V))))
    (nmap : Option (Dict L (List L))) (m₁ m₂ : Memo V κ) (u₁ : σ₁) (u₂ : σ₂) (hR : R [] u₁ u₂) :
    ExRel (SimAcc q (R n.labels))
      (computeActs cfg₁ ks₁ t inp prev n past nmap m₁ u₁) (computeActs cfg₂ ks₂ t inp prev n past nmap m₂ u₂) := by
  unfold computeActs doActivityRule
  simp only [hr₁, hr₂]
  have hf := nodes_sim q hidx hm₁ hm₂ t R hnode hpert ks₁ ks₂ inp prev past nmap n.labels [] ⟨[], [], [], m₁, u₁⟩
    ⟨[], [], [], m₂, u₂⟩ rfl ⟨rfl, rfl, rfl, fun _ => ⟨rfl, rfl⟩, hR⟩
  generalize n.labels.foldlM (nodeStep cfg₁ ks₁ rule₁ t inp prev n past nmap) ⟨[], [], [], m₁, u₁⟩ = p at hf ⊢
  generalize n.labels.foldlM (nodeStep cfg₂ ks₂ rule₂ t inp prev n past nmap) ⟨[], [], [], m₂, u₂⟩ = q at hf ⊢
  cases hf with
  | error e => exact .error e
  | @ok p q h => exact .ok ⟨by simp only [h.curr, h.added], h.added, h.removed, h.quiet, h.user⟩

theorem SimSpec.acts (h : SimSpec cfg₁ cfg₂ rule₁ rule₂ n S) (ks₁ ks₂ : KeySpec L A V I κ) (t : Nat) (inp : Inp I)
    (prev : Dict L V) (past : Option (List (Option (Dict L V)))) (nmap : Option (Dict L (List L))) (m₁ m₂ : Memo V κ)
    (u₁ : σ₁) (u₂ : σ₂) (hS : S t [] u₁ u₂) :
    ExRel (fun a b => a.curr = b.curr ∧ a.added = [] ∧ b.added = [] ∧ a.removed = [] ∧ b.removed = [] ∧
        S (t + 1) [] a.user b.user)
      (computeActs cfg₁ ks₁ t inp prev n past nmap m₁ u₁) (computeActs cfg₂ ks₂ t inp prev n past nmap m₂ u₂) := by
  have hf := acts_sim (cfg₁ := cfg₁) (cfg₂ := cfg₂) (n := n) True h.ofRule₁ h.ofRule₂ h.labelIdx h.memo₁ h.memo₂ t (S t)
    (fun done x rest ctx u₁ u₂ h1 h2 h3 h4 => by
      have := h.node t done x rest ctx u₁ u₂ h1 h2 h3 h4
      generalize rule₁ ctx u₁ = p at this ⊢
      generalize rule₂ ctx u₂ = q at this ⊢
      cases this with
      | error e => exact .error e
      | ok hr => exact .ok ⟨hr.1, fun _ => ⟨hr.2.1, hr.2.2.1⟩, hr.2.2.2⟩)
    (h.pert t) ks₁ ks₂ inp prev past nmap m₁ m₂ u₁ u₂ hS
  generalize computeActs cfg₁ ks₁ t inp prev n past nmap m₁ u₁ = p at hf ⊢
  generalize computeActs cfg₂ ks₂ t inp prev n past nmap m₂ u₂ = q at hf ⊢
  cases hf with
  | error e => exact .error e
  | @ok p q hr =>
    have hq := hr.quiet trivial
    exact .ok ⟨hr.curr, hq.1, by rw [← hr.added, hq.1], hq.2, by rw [← hr.removed, hq.2], h.post t _ _ hr.user⟩

/-- Corresponding local variables of `evolve`. -/
structure SimLoop (n : Net L A) (S : Nat → List L → σ₁ → σ₂ → Prop) (a : Loop L A V σ₁ κ) (b : Loop L A V σ₂ κ) :
    Prop where
  t : a.t = b.t
  traj : a.traj = b.traj
  prevActs : a.prevActs = b.prevActs
  prevNet : a.prevNet = b.prevNet
  nmap : a.nmap = b.nmap
  heap : a.world.heap = b.world.heap
  net : a.world.heap[a.prevNet]? = some n
  len : a.traj.length = a.t
  user : S a.t [] a.world.user b.world.user

theorem SimSpec.pastActivities (h : SimSpec cfg₁ cfg₂ rule₁ rule₂ n S) (traj : List (St L A V)) (t : Nat) :
    pastActivities cfg₁ traj t = Verif.pastActivities cfg₂ traj t := by
  unfold Verif.pastActivities
  rw [h.past]
  have : ∀ k τ acc, pastLoop cfg₁ traj k τ acc = pastLoop cfg₂ traj k τ acc := by
    intro k
    induction k with
    | zero => intros; rfl
    | succ k ih =>
      intro τ acc
      unfold pastLoop
      have : pastEntry cfg₁ traj τ = pastEntry cfg₂ traj τ := by
        unfold pastEntry
        rw [h.past, h.natLabel, h.labelCodec, h.valCodec]
      rw [this]
      cases pastEntry cfg₂ traj τ with
      | error e => rfl
      | ok d => exact ih _ _
  simp only [this]

theorem SimSpec.step (h : SimSpec cfg₁ cfg₂ rule₁ rule₂ n S) (ks₁ ks₂ : KeySpec L A V I κ) (inp : Inp I)
    (a : Loop L A V σ₁ κ) (b : Loop L A V σ₂ κ) (hab : SimLoop n S a b) :
    ExRel (SimLoop n S) (evolveStep cfg₁ ks₁ inp a) (evolveStep cfg₂ ks₂ inp b) := by
  obtain ⟨t, traj, pa, pn, memo, nmap, ⟨heap, u⟩⟩ := a
  obtain ⟨t', traj', pa', pn', memo', nmap', ⟨heap', u'⟩⟩ := b
  obtain ⟨h1, h2, h3, h4, h5, h6, h7, h8, h9⟩ := hab
  simp only at h1 h2 h3 h4 h5 h6 h7 h8 h9
  subst h1 h2 h3 h4 h5 h6
  have hd₁ : (⟨heap, u⟩ : World L A σ₁).deref pn = n := by simp [World.deref, h7]
  have hd₂ : (⟨heap, u'⟩ : World L A σ₂).deref pn = n := by simp [World.deref, h7]
  have ht₁ : ∀ acts (w : World L A σ₁), evolveTopology cfg₁ t acts pn [] [] w = .ok (pn, w) := fun acts w => by
    simp [evolveTopology, evolveReqs, h.top₁]
  have ht₂ : ∀ acts (w : World L A σ₂), evolveTopology cfg₂ t acts pn [] [] w = .ok (pn, w) := fun acts w => by
    simp [evolveTopology, evolveReqs, h.top₂]
  have hst : ∀ st c, storeActs cfg₁ st c = storeActs cfg₂ st c := fun st c => by
    unfold storeActs; rw [h.persistActs, h.labelCodec, h.valCodec]
  have hsn : ∀ st u v, storeNet cfg₁ st pn (⟨heap, u⟩ : World L A σ₁) = storeNet cfg₂ st pn (⟨heap, v⟩ : World L A σ₂) :=
    fun st u v => by
      unfold storeNet; rw [h.persistNet, h.labelCodec, h.attrCodec]; rfl
  unfold evolveStep
  simp only [h.pastActivities, h.order, h.compression]
  cases Verif.pastActivities cfg₂ traj t with
  | error e => exact .error e
  | ok past =>
    simp only
    have hc := h.acts ks₁ ks₂ t inp pa past nmap memo memo' u u' h9
    cases ho : cfg₂.order with
    | activitiesFirst =>
      simp only
      rw [hd₁, hd₂]
      generalize computeActs cfg₁ ks₁ t inp pa n past nmap memo u = x at hc ⊢
      generalize computeActs cfg₂ ks₂ t inp pa n past nmap memo' u' = y at hc ⊢
      cases hc with
      | error e => exact .error e
      | @ok acc acc' hr =>
        obtain ⟨c, ad, rm, m, v⟩ := acc
        obtain ⟨c', ad', rm', m', v'⟩ := acc'
        obtain ⟨g1, g2, g3, g4, g5, g6⟩ := hr
        simp only at g1 g2 g3 g4 g5 g6
        subst g1 g2 g3 g4 g5
        simp only [hst]
        cases storeActs cfg₂ (St.new cfg₂.compression) c with
        | error e => exact .error e
        | ok st1 =>
          simp only
          rw [ht₁, ht₂]
          simp only
          rw [hsn st1 v v']
          cases storeNet cfg₂ st1 pn (⟨heap, v'⟩ : World L A σ₂) with
          | error e => exact .error e
          | ok st2 => exact .ok ⟨rfl, rfl, rfl, rfl, rfl, rfl, h7, by simp [h8], g6⟩
    | topologyFirst =>
      simp only
      rw [ht₁, ht₂]
      simp only
      rw [hsn _ u u']
      cases storeNet cfg₂ (St.new cfg₂.compression) pn (⟨heap, u'⟩ : World L A σ₂) with
      | error e => exact .error e
      | ok st1 =>
        simp only
        rw [hd₁, hd₂]
        generalize computeActs cfg₁ ks₁ t inp pa n past nmap memo u = x at hc ⊢
        generalize computeActs cfg₂ ks₂ t inp pa n past nmap memo' u' = y at hc ⊢
        cases hc with
        | error e => exact .error e
        | @ok acc acc' hr =>
          obtain ⟨c, ad, rm, m, v⟩ := acc
          obtain ⟨c', ad', rm', m', v'⟩ := acc'
          obtain ⟨g1, g2, g3, g4, g5, g6⟩ := hr
          simp only at g1 g2 g3 g4 g5 g6
          subst g1 g2 g3 g4 g5
          simp only [hst]
          cases storeActs cfg₂ st1 c with
          | error e => exact .error e
          | ok st2 => exact .ok ⟨rfl, rfl, rfl, rfl, rfl, rfl, h7, by simp [h8], g6⟩
    | synchronous =>
      simp only
      rw [ht₁, ht₂]
      simp only
      rw [hsn _ u u']
      cases storeNet cfg₂ (St.new cfg₂.compression) pn (⟨heap, u'⟩ : World L A σ₂) with
      | error e => exact .error e
      | ok st1 =>
        simp only
        rw [hd₁, hd₂]
        generalize computeActs cfg₁ ks₁ t inp pa n past nmap memo u = x at hc ⊢
        generalize computeActs cfg₂ ks₂ t inp pa n past nmap memo' u' = y at hc ⊢
        cases hc with
        | error e => exact .error e
        | @ok acc acc' hr =>
          obtain ⟨c, ad, rm, m, v⟩ := acc
          obtain ⟨c', ad', rm', m', v'⟩ := acc'
          obtain ⟨g1, g2, g3, g4, g5, g6⟩ := hr
          simp only at g1 g2 g3 g4 g5 g6
          subst g1 g2 g3 g4 g5
          simp only [hst]
          cases storeActs cfg₂ st1 c with
          | error e => exact .error e
          | ok st2 => exact .ok ⟨rfl, rfl, rfl, rfl, rfl, rfl, h7, by simp [h8], g6⟩

theorem SimSpec.loop (h : SimSpec cfg₁ cfg₂ rule₁ rule₂ n S) (ks₁ ks₂ : KeySpec L A V I κ) (fuel : Nat) :
    ∀ (a : Loop L A V σ₁ κ) (b : Loop L A V σ₂ κ), SimLoop n S a b →
    ExRel (SimLoop n S) (evolveLoop cfg₁ ks₁ fuel a) (evolveLoop cfg₂ ks₂ fuel b) := by
  induction fuel with
  | zero => intros; exact .error _
  | succ fuel ih =>
    intro a b hab
    obtain ⟨t, traj, pa, pn, memo, nmap, ⟨heap, u⟩⟩ := a
    obtain ⟨t', traj', pa', pn', memo', nmap', ⟨heap', u'⟩⟩ := b
    obtain ⟨h1, h2, h3, h4, h5, h6, h7, h8, h9⟩ := hab
    simp only at h1 h2 h3 h4 h5 h6 h7 h8 h9
    subst h1 h2 h3 h4 h5 h6
    unfold evolveLoop
    have hd₁ : (⟨heap, u⟩ : World L A σ₁).deref pn = n := by simp [World.deref, h7]
    have hd₂ : (⟨heap, u'⟩ : World L A σ₂).deref pn = n := by simp [World.deref, h7]
    have hin := h.input t pa u u' h9
    simp only [hd₁, hd₂]
    generalize callInput cfg₁.input t pa n u = p at hin ⊢
    generalize callInput cfg₂.input t pa n u' = q at hin ⊢
    cases hin with
    | error e => exact .error e
    | @ok p q hr =>
      obtain ⟨i, v⟩ := p
      obtain ⟨i', v'⟩ := q
      obtain ⟨g1, g2⟩ := hr
      simp only at g1 g2
      subst g1
      cases i with
      | none => exact .ok ⟨rfl, rfl, rfl, rfl, rfl, rfl, h7, h8, g2⟩
      | some inp =>
        simp only
        have hs := h.step ks₁ ks₂ inp ⟨t, traj, pa, pn, memo, nmap, ⟨heap, v⟩⟩ ⟨t, traj, pa, pn, memo', nmap, ⟨heap, v'⟩⟩
          ⟨rfl, rfl, rfl, rfl, rfl, rfl, h7, h8, g2⟩
        generalize evolveStep cfg₁ ks₁ inp ⟨t, traj, pa, pn, memo, nmap, ⟨heap, v⟩⟩ = x at hs ⊢
        generalize evolveStep cfg₂ ks₂ inp ⟨t, traj, pa, pn, memo', nmap, ⟨heap, v'⟩⟩ = y at hs ⊢
        cases hs with
        | error e => exact .error e
        | ok hr => exact ih _ _ hr

/-- Corresponding rules give the same states, the same heap, or the same exception. -/
theorem SimSpec.evolve (h : SimSpec cfg₁ cfg₂ rule₁ rule₂ n S) (fuel : Nat) (init : Option (Conds L V)) (r : Nat)
    (w₁ : World L A σ₁) (w₂ : World L A σ₂) (hw : w₁.heap = w₂.heap) (hr : w₁.heap[r]? = some n)
    (hS : S 1 [] w₁.user w₂.user) :
    ExRel (fun a b => a.states = b.states ∧ a.world.heap = b.world.heap ∧
        S a.states.length [] a.world.user b.world.user)
      (evolve fuel cfg₁ init r w₁) (evolve fuel cfg₂ init r w₂) := by
  unfold Verif.evolve
  have hd₁ : w₁.deref r = n := by simp [World.deref, hr]
  have hd₂ : w₂.deref r = n := by simp [World.deref, ← hw, hr]
  have e1 : initDict cfg₁ init = initDict cfg₂ init := by
    cases init with
    | none => rfl
    | some c => show c.toDict _ = c.toDict _; rw [h.natLabel]
  have hi : ExRel (SimLoop n S) (evolveInit cfg₁ (initDict cfg₁ init) r w₁) (evolveInit cfg₂ (initDict cfg₂ init) r w₂) := by
    rw [e1]
    unfold evolveInit
    rw [hd₁, hd₂]
    simp only [h.top₁, h.top₂, h.ofRule₁, h.ofRule₂, h.compression, h.labelCodec, h.valCodec, h.attrCodec]
    have key : ExRel (SimLoop (κ := κ) n S)
        (if (initDict cfg₂ init).length ≠ n.size ∧ (some rule₁).isSome = true then
          Except.error (.exception "too few intial conditions specified")
        else match (St.new cfg₂.compression : St L A V).setActs cfg₂.labelCodec cfg₂.valCodec (initDict cfg₂ init) with
          | .error e => .error e
          | .ok s1 => match s1.setNet cfg₂.labelCodec cfg₂.attrCodec r n with
            | .error e => .error e
            | .ok s2 => .ok ⟨1, [s2], initDict cfg₂ init, r, [],
                if (none : Option (TopCtx L A V → σ₁ → Except Err (TopOut L A × σ₁))).isSome = true then none
                else some (neighbourhoodMap n), w₁⟩)
        (if (initDict cfg₂ init).length ≠ n.size ∧ (some rule₂).isSome = true then
          Except.error (.exception "too few intial conditions specified")
        else match (St.new cfg₂.compression : St L A V).setActs cfg₂.labelCodec cfg₂.valCodec (initDict cfg₂ init) with
          | .error e => .error e
          | .ok s1 => match s1.setNet cfg₂.labelCodec cfg₂.attrCodec r n with
            | .error e => .error e
            | .ok s2 => .ok ⟨1, [s2], initDict cfg₂ init, r, [],
                if (none : Option (TopCtx L A V → σ₂ → Except Err (TopOut L A × σ₂))).isSome = true then none
                else some (neighbourhoodMap n), w₂⟩) := by
      by_cases hl : (initDict cfg₂ init).length = n.size
      case neg =>
        simp only [ne_eq, hl, not_false_eq_true, Option.isSome_some, and_self, if_true]
        exact .error _
      case pos =>
        simp only [ne_eq, hl, not_true_eq_false, false_and, if_false]
        cases (St.new cfg₂.compression : St L A V).setActs cfg₂.labelCodec cfg₂.valCodec (initDict cfg₂ init) with
        | error e => exact .error e
        | ok s1 =>
          simp only
          cases s1.setNet cfg₂.labelCodec cfg₂.attrCodec r n with
          | error e => exact .error e
          | ok s2 => exact .ok ⟨rfl, rfl, rfl, rfl, rfl, hw, hr, rfl, hS⟩
    cases h₁ : cfg₁.input with
    | neither => rw [h.neither.1 h₁]; exact .error _
    | timesteps k => 
      cases h₂ : cfg₂.input with
      | neither => have := h.neither.2 h₂; rw [h₁] at this; cases this
      | timesteps k => exact key
      | list k => exact key
      | fn k => exact key
    | list k =>
      cases h₂ : cfg₂.input with
      | neither => have := h.neither.2 h₂; rw [h₁] at this; cases this
      | timesteps k => exact key
      | list k => exact key
      | fn k => exact key
    | fn k =>
      cases h₂ : cfg₂.input with
      | neither => have := h.neither.2 h₂; rw [h₁] at this; cases this
      | timesteps k => exact key
      | list k => exact key
      | fn k => exact key
  generalize evolveInit cfg₁ (initDict cfg₁ init) r w₁ = x at hi ⊢
  generalize evolveInit cfg₂ (initDict cfg₂ init) r w₂ = y at hi ⊢
  cases hi with
  | error e => exact .error e
  | @ok a b hab =>
    simp only
    have hl := h.loop (effectiveKey cfg₁ (w₁.deref r)) (effectiveKey cfg₂ (w₂.deref r)) fuel a b hab
    generalize evolveLoop cfg₁ (effectiveKey cfg₁ (w₁.deref r)) fuel a = x at hl ⊢
    generalize evolveLoop cfg₂ (effectiveKey cfg₂ (w₂.deref r)) fuel b = y at hl ⊢
    cases hl with
    | error e => exact .error e
    | @ok a b hr => exact .ok ⟨hr.traj, hr.heap, by rw [show (⟨a.traj, a.world⟩ : Evolved L A V σ₁).states.length = a.traj.length from rfl, hr.len]; exact hr.user⟩

end
end Verif
