import Verif.Proofs.Substitution
/-! # Runs of substitution systems -/

namespace Verif
open MG Spec

section
variable {C A V I κ : Type}

/-- The activities of a word whose first symbol has the label `a`. -/
def wordDict (a : Nat) (w : List V) : Dict Nat V := (w.zipIdx a).map (fun p => (p.2, p.1))

theorem keys_wordDict (a : Nat) (w : List V) : (wordDict a w).keys = List.range' a w.length := by
  unfold wordDict Dict.keys
  rw [List.map_map]
  have : (Prod.fst ∘ fun p : V × Nat => (p.2, p.1)) = Prod.snd := rfl
  rw [this, List.zipIdx_map_snd]

theorem nodup_wordDict (a : Nat) (w : List V) : (wordDict a w).keys.Nodup := by
  rw [keys_wordDict]; exact nodup_range'_one _ _

theorem get?_wordDict (a : Nat) (w : List V) (i : Nat) : (wordDict a w).get? (a + i) = w[i]? := by
  cases h : w[i]? with
  | none =>
    rw [Dict.get?_eq_none_iff, keys_wordDict, List.mem_range'_1]
    rw [List.getElem?_eq_none_iff] at h
    omega
  | some v =>
    apply Dict.get?_of_mem (nodup_wordDict a w)
    unfold wordDict
    rw [List.mem_map]
    refine ⟨(v, a + i), ?_, rfl⟩
    rw [List.mem_zipIdx_iff_le_and_getElem?_sub]
    simpa using h

theorem foldl_wordReq (m b : Nat) (vs : List V) (k : Nat) (d : Dict Nat V) (hd : ∀ x ∈ d.keys, x < b + k) :
    (((vs.zipIdx k).map (wordReq m b : V × Nat → AddReq Nat A V)).foldl (fun d r => d.set r.label r.state) d) =
      d ++ wordDict (b + k) vs := by
  induction vs generalizing k d with
  | nil => simp [wordDict]
  | cons v vs ih =>
    rw [List.zipIdx_cons, List.map_cons, List.foldl_cons]
    have hs : d.set (b + k) v = d ++ [(b + k, v)] := Dict.set_of_not_mem (fun h => by have := hd _ h; omega) v
    show List.foldl _ (d.set (b + k) v) _ = _
    rw [hs, ih (k + 1)]
    · simp [wordDict, Nat.add_assoc]
    · intro x hx
      rw [Dict.keys_append, List.mem_append] at hx
      rcases hx with hx | hx
      · have := hd x hx; omega
      · simp at hx; omega

variable [DecidableEq C]

omit [DecidableEq C] in
theorem substAdds (dtype : C → Except Err V) (m b t : Nat) (cs : List C) : ∀ (last k : Nat) (reqs : List (AddReq Nat A V)),
    last + 1 = b + k →
    cs.foldlM (substAdd dtype m) (⟨last, k, t⟩, reqs) =
      match allE dtype cs with
      | .error e => .error e
      | .ok r => .ok (⟨last + r.length, k + r.length, t⟩, reqs ++ (r.zipIdx k).map (wordReq m b)) := by
  induction cs with
  | nil => intro last k reqs _; simp [allE, pure, Except.pure]
  | cons c cs ih =>
    intro last k reqs h
    rw [List.foldlM_cons]
    unfold substAdd allE
    cases hc : dtype c with
    | error e => rfl
    | ok v =>
      simp only [bind, Except.bind]
      have := ih (last + 1) (k + 1) (reqs ++ [⟨v, (List.range (min (k + 1) m)).map (fun j => (last + 1 - j, [])), last + 1⟩]) (by omega)
      unfold substAdd at this
      rw [this]
      cases allE dtype cs with
      | error e => rfl
      | ok r =>
        simp only [List.length_cons, List.zipIdx_cons, List.map_cons, List.append_assoc, List.singleton_append, wordReq]
        rw [h]
        congr 3 <;> omega

omit [DecidableEq C] in
theorem substGetState_word (str : V → List C) (a : Nat) (w : List V) (k : Nat) : ∀ i, i + k ≤ w.length →
    substGetState str (wordDict a w) (List.range' (a + i) k) = .ok (((w.drop i).take k).flatMap str) := by
  induction k with
  | zero => intro i _; simp [substGetState]
  | succ k ih =>
    intro i hi
    have hlt : i < w.length := by omega
    rw [List.range'_succ]
    unfold substGetState
    have h1 : (wordDict a w).get (a + i) = .ok w[i] := by
      rw [Dict.get_eq_ok_iff, get?_wordDict, List.getElem?_eq_getElem hlt]
    rw [h1]
    simp only
    rw [show a + i + 1 = a + (i + 1) by omega, ih (i + 1) (by omega)]
    simp only
    rw [List.drop_eq_getElem_cons hlt, List.take_succ_cons, List.flatMap_cons]

/-- What the node at position `i` of the word produces. -/
def produced (str : V → List C) (dtype : C → Except Err V) (rules : Dict (List C) (List C)) (m : Nat) (w : List V) (i : Nat) :
    Except Err (List V) :=
  if i + m ≤ w.length then replacement str dtype rules.get? ((w.drop i).take m) else .ok []

theorem substRule_word (str : V → List C) (dtype : C → Except Err V) (rules : Dict (List C) (List C)) (m a b t : Nat) (w : List V)
    (i : Nat) (hi : i < w.length) (ctx : NodeCtx Nat A V I) (hnode : ctx.node = a + i) (ht : ctx.t = t)
    (hacts : ctx.activities = wordDict a w) (hnb : ctx.neighbours = List.range' (a + i) (min m (w.length - i)))
    (u : SubstState) (last k : Nat) (hu : u.update t = ⟨last, k, t⟩) (hlast : last + 1 = b + k) :
    substRule str dtype rules m ctx u =
      match produced str dtype rules m w i with
      | .error e => .error e
      | .ok r => .ok (⟨ctx.current, (r.zipIdx k).map (wordReq m b), [a + i]⟩, ⟨last + r.length, k + r.length, t⟩) := by
  unfold substRule produced
  rw [ht]
  simp only [hu, hnb, List.length_range', hnode, hacts]
  by_cases h : i + m ≤ w.length
  · rw [if_pos h, if_neg (by simp; omega), show min m (w.length - i) = m by omega, substGetState_word str a w m i h]
    simp only
    unfold replacement Dict.get
    cases rules.get? (((w.drop i).take m).flatMap str) with
    | none => rfl
    | some cs =>
      simp only
      rw [substAdds dtype m b t cs last k [] hlast]
      cases allE dtype cs with
      | error e => rfl
      | ok r => simp
  · rw [if_neg h, if_pos (by omega)]
    simp

variable [DecidableEq V] [DecidableEq κ]

/-- The context of a node. -/
theorem word_ctx {cfg : Config Nat A V I SubstState κ} {m a t : Nat} {w : List V} {g : MG Nat A} (hg : WordNet m a w.length g)
    (past : Option (List (Option (Dict Nat V)))) (i : Nat) (hi : i < w.length) :
    ∃ ctx, mkCtx cfg t .timestep (wordDict a w) (ofMG g) past (some (neighbourhoodMap (ofMG g))) (a + i) = .ok ctx ∧
      ctx.node = a + i ∧ ctx.t = t ∧ ctx.activities = wordDict a w ∧
      ctx.neighbours = List.range' (a + i) (min m (w.length - i)) ∧ ctx.input = none := by
  obtain ⟨h1, h2, h3, h4⟩ := hg
  have hx : a + i ∈ g.labels := by rw [h3, List.mem_range'_1]; omega
  obtain ⟨at', hat⟩ := get?_ofMG_of_mem hx
  have hinc : ((ofMG g).nodes.get? (a + i)).map (fun d => d.incoming) = some (incomingOf g.edges (a + i)) := by
    rw [hat.2]; rfl
  have hnb : specNbrs (ofMG g) (a + i) = some (List.range' (a + i) (min m (w.length - i))) := by
    unfold specNbrs
    rw [show (ofMG g).rotation = g.rot from rfl, h2]
    simp only
    rw [hat.2]
    simp only [Option.map_some, nodeOf]
    rw [keys_incomingOf, h4 i hi]
  refine ⟨⟨a + i, t, wordDict a w, List.range' (a + i) (min m (w.length - i)), (w.drop i).take (min m (w.length - i)),
    incomingOf g.edges (a + i), w[i], past, none⟩, ?_, rfl, rfl, rfl, rfl, rfl⟩
  rw [mkCtx_ok_iff (Or.inr rfl)]
  refine ⟨rfl, rfl, rfl, hnb, ?_, hinc, ?_, rfl, rfl⟩
  · simp only
    apply List.ext_getElem?
    intro j
    simp only [List.getElem?_map, List.getElem?_take, List.getElem?_drop]
    by_cases hj : j < min m (w.length - i)
    · rw [if_pos hj, List.getElem?_range' hj]
      simp only [Option.map_some, Nat.one_mul]
      rw [Nat.add_assoc, get?_wordDict, List.getElem?_eq_getElem (by omega)]
      rfl
    · rw [if_neg hj, List.getElem?_eq_none_iff.2 (by simp; omega)]
      rfl
  · simp only
    rw [get?_wordDict, List.getElem?_eq_getElem hi]

/-- The loop over the nodes. -/
theorem word_nodes {cfg : Config Nat A V I SubstState κ} {str : V → List C} {dtype : C → Except Err V}
    {rules : Dict (List C) (List C)} {m : Nat} (hP : cfg.perturbation = none) (hmem : cfg.memoize = false) {ks : KeySpec Nat A V I κ}
    {a b t : Nat} {w : List V} {g : MG Nat A} (hg : WordNet m a w.length g) (past : Option (List (Option (Dict Nat V))))
    (memo : Memo V κ) (j : Nat) : ∀ (i : Nat) (vs : List V) (u : SubstState) (last : Nat), i + j = w.length →
    u.update t = ⟨last, vs.length, t⟩ → last + 1 = b + vs.length →
    match joinE ((List.range' i j).map (produced str dtype rules m w)) with
    | .error e => (List.range' (a + i) j).foldlM (nodeStep cfg ks (substRule str dtype rules m) t .timestep (wordDict a w) (ofMG g) past
        (some (neighbourhoodMap (ofMG g)))) ⟨[], (vs.zipIdx).map (wordReq m b), List.range' a i, memo, u⟩ = .error e
    | .ok r => ∃ u' last', (List.range' (a + i) j).foldlM (nodeStep cfg ks (substRule str dtype rules m) t .timestep (wordDict a w)
        (ofMG g) past (some (neighbourhoodMap (ofMG g)))) ⟨[], (vs.zipIdx).map (wordReq m b), List.range' a i, memo, u⟩ =
        .ok ⟨[], ((vs ++ r).zipIdx).map (wordReq m b), List.range' a w.length, memo, u'⟩ ∧
        u'.update t = ⟨last', (vs ++ r).length, t⟩ ∧ last' + 1 = b + (vs ++ r).length ∧ (1 ≤ j → u'.lastT = t) := by
  induction j with
  | zero =>
    intro i vs u last hij hu hl
    simp only [List.range'_zero, List.map_nil, joinE, List.foldlM_nil]
    rw [Nat.add_zero] at hij
    subst hij
    exact ⟨u, last, by simp [pure, Except.pure], by simpa using hu, by simpa using hl, by omega⟩
  | succ j ih =>
    intro i vs u last hij hu hl
    have hi : i < w.length := by omega
    obtain ⟨ctx, c1, c2, c3, c4, c5, c6⟩ := word_ctx (cfg := cfg) (t := t) hg past i hi
    have hrule := substRule_word str dtype rules m a b t w i hi ctx c2 c3 c4 c5 u last vs.length hu hl
    rw [List.range'_succ, List.range'_succ, List.map_cons, List.foldlM_cons]
    cases hp : produced str dtype rules m w i with
    | error e =>
      rw [hp] at hrule
      simp only [joinE]
      unfold nodeStep applyRule
      rw [c1]
      simp only [hmem, Bool.false_eq_true, if_false, hrule]
      rfl
    | ok r =>
      rw [hp] at hrule
      simp only at hrule
      have hstep : nodeStep cfg ks (substRule str dtype rules m) t .timestep (wordDict a w) (ofMG g) past
          (some (neighbourhoodMap (ofMG g))) ⟨[], (vs.zipIdx).map (wordReq m b), List.range' a i, memo, u⟩ (a + i) =
          .ok ⟨[], ((vs ++ r).zipIdx).map (wordReq m b), List.range' a (i + 1), memo, ⟨last + r.length, vs.length + r.length, t⟩⟩ := by
        unfold nodeStep applyRule perturb
        rw [c1]
        simp only [hmem, Bool.false_eq_true, if_false, hrule, hP]
        simp only [List.mem_singleton, if_true]
        congr 2
        · rw [List.zipIdx_append, List.map_append, Nat.zero_add]
        · rw [List.range'_concat, Nat.one_mul]
      have hrest := ih (i + 1) (vs ++ r) ⟨last + r.length, vs.length + r.length, t⟩ (last + r.length) (by omega)
        (by simp [SubstState.update]) (by simp; omega)
      rw [show a + i + 1 = a + (i + 1) by omega]
      simp only [bind, Except.bind, hstep]
      simp only [joinE]
      cases hj : joinE ((List.range' (i + 1) j).map (produced str dtype rules m w)) with
      | error e =>
        rw [hj] at hrest
        exact hrest
      | ok r' =>
        rw [hj] at hrest
        simp only at hrest ⊢
        obtain ⟨u', last', q1, q2, q3, q4⟩ := hrest
        refine ⟨u', last', by rw [q1, List.append_assoc], by rw [q2, List.append_assoc], by rw [q3, List.append_assoc], ?_⟩
        intro _
        rcases Nat.eq_zero_or_pos j with h0 | h0
        · subst h0
          simp only [List.range'_zero, List.foldlM_nil, pure, Except.pure, Except.ok.injEq, Acc.mk.injEq] at q1
          rw [← q1.2.2.2.2]
        · exact q4 h0

omit [DecidableEq C] [DecidableEq V] in
theorem joinE_append (l l' : List (Except Err (List V))) : joinE (l ++ l') =
    match joinE l with
    | .error e => .error e
    | .ok r => match joinE l' with
      | .error e => .error e
      | .ok r' => .ok (r ++ r') := by
  induction l with
  | nil => simp only [List.nil_append, joinE]; cases joinE l' <;> rfl
  | cons x l ih =>
    cases x with
    | error e => rfl
    | ok v =>
      simp only [List.cons_append, joinE, ih]
      cases joinE l with
      | error e => rfl
      | ok r =>
        simp only
        cases joinE l' with
        | error e => rfl
        | ok r' => simp

omit [DecidableEq V] in
/-- All nodes together produce the rewritten word. -/
theorem produced_rewrite (str : V → List C) (dtype : C → Except Err V) (rules : Dict (List C) (List C)) (m : Nat) (hm : 1 ≤ m)
    (w : List V) : joinE ((List.range' 0 w.length).map (produced str dtype rules m w)) =
      rewrite m (replacement str dtype rules.get?) w := by
  have h2 : ∀ k i, w.length < i + m → joinE ((List.range' i k).map (produced str dtype rules m w)) = .ok [] := by
    intro k
    induction k with
    | zero => intro i _; rfl
    | succ k ih =>
      intro i hi
      rw [List.range'_succ, List.map_cons]
      unfold produced
      rw [if_neg (by omega)]
      have := ih (i + 1) (by omega)
      unfold produced at this
      simp only [joinE, this, List.nil_append]
  have h1 : (List.range' 0 (w.length + 1 - m)).map (produced str dtype rules m w) =
      (windows m w).map (replacement str dtype rules.get?) := by
    unfold windows
    rw [List.map_map, List.range_eq_range']
    apply List.map_congr_left
    intro i hi
    rw [List.mem_range'_1] at hi
    unfold produced
    rw [if_pos (by omega)]
    rfl
  have hsplit : List.range' 0 w.length = List.range' 0 (w.length + 1 - m) ++ List.range' (w.length + 1 - m) (w.length - (w.length + 1 - m)) := by
    have := List.range'_append (s := 0) (m := w.length + 1 - m) (n := w.length - (w.length + 1 - m)) (step := 1)
    rw [Nat.one_mul, Nat.zero_add] at this
    rw [this]
    congr 1
    omega
  rw [hsplit, List.map_append, joinE_append, h1, h2 _ _ (by omega)]
  unfold rewrite
  cases joinE ((windows m w).map (replacement str dtype rules.get?)) with
  | error e => rfl
  | ok r => simp

/-- What holds of the loop state after the timesteps so far, if the word now is `w`. -/
structure WordLoop (m : Nat) (w : List V) (v : VLoop Nat A V SubstState κ) : Prop where
  acts : ∃ a g, v.acts = wordDict a w ∧ v.net = ofMG g ∧ WordNet m a w.length g
  nmap : v.nmap = some (neighbourhoodMap v.net)
  ready : w = [] ∨ v.user.lastT ≠ v.hist.length ∨ v.user.added = 0
  pos : 1 ≤ v.hist.length

/-- The settings of a run of a substitution system. -/
structure SubstRun (cfg : Config Nat A V I SubstState κ) (str : V → List C) (dtype : C → Except Err V)
    (rules : Dict (List C) (List C)) (m T : Nat) : Prop where
  rule : cfg.rule = some (substRule str dtype rules m)
  order : cfg.order = .activitiesFirst
  top : cfg.topology = none
  pert : cfg.perturbation = none
  memo : cfg.memoize = false
  input : cfg.input = .timesteps T
  labels : ∀ x, cfg.labelCodec.ExactAt x
  attrs : ∀ x, cfg.attrCodec.ExactAt x
  size : 1 ≤ m

theorem word_step {cfg : Config Nat A V I SubstState κ} {str : V → List C} {dtype : C → Except Err V}
    {rules : Dict (List C) (List C)} {m T : Nat} (hc : SubstRun cfg str dtype rules m T) (ks : KeySpec Nat A V I κ)
    {w : List V} {v : VLoop Nat A V SubstState κ} (hv : WordLoop m w v) :
    match rewrite m (replacement str dtype rules.get?) w with
    | .error e => vstep cfg ks .timestep v = .error e
    | .ok r => ∃ v' b, vstep cfg ks .timestep v = .ok v' ∧ WordLoop m r v' ∧
        v'.hist = v.hist ++ [(v'.acts, v'.net)] ∧ v'.acts = wordDict b r := by
  obtain ⟨⟨a, g, ha, hn, hg⟩, hnm, hready, hpos⟩ := hv
  have hlab : v.net.labels = List.range' a w.length := by rw [hn, labels_ofMG, hg.2.2.1]
  have hobs : v.hist.length ≤ (obsHist cfg v.hist).length := by simp [obsHist]
  unfold vstep
  rw [pastV_eq cfg _ _ hpos hobs]
  simp only [hc.order]
  unfold computeActs doActivityRule
  simp only [hc.rule]
  rw [hlab, ha, hnm, hn]
  generalize (if cfg.past.isEmpty then none else _) = past
  cases hw : w with
  | nil =>
    subst hw
    have hr : rewrite m (replacement str dtype rules.get?) ([] : List V) = .ok [] := by
      have hm := hc.size
      unfold rewrite windows
      rw [List.length_nil, show 0 + 1 - m = 0 by omega]
      rfl
    rw [hr]
    simp only [List.length_nil, List.range'_zero, List.foldlM_nil, pure, Except.pure, List.foldl_nil]
    unfold topoV reqsV
    simp only [List.isEmpty_nil, Bool.and_self, if_true, hc.top]
    refine ⟨_, a, rfl, ⟨⟨a, g, rfl, rfl, hg⟩, rfl, Or.inl rfl, by simp⟩, rfl, rfl⟩
  | cons c w' =>
    rw [← hw]
    have hlen : 1 ≤ w.length := by rw [hw]; simp
    have hu : v.user.update v.hist.length = ⟨v.user.last, ([] : List V).length, v.hist.length⟩ := by
      unfold SubstState.update
      rcases hready with h | h | h
      · rw [hw] at h; cases h
      · rw [if_pos h]; rfl
      · rw [h]; simp
    have hfold := word_nodes (cfg := cfg) (str := str) (dtype := dtype) (rules := rules) (m := m) hc.pert hc.memo (ks := ks)
      (b := v.user.last + 1) hg past v.memo w.length 0 [] v.user v.user.last (by omega) hu (by simp)
    rw [produced_rewrite str dtype rules m hc.size] at hfold
    cases hr : rewrite m (replacement str dtype rules.get?) w with
    | error e =>
      rw [hr] at hfold
      simp only [List.zipIdx_nil, List.map_nil, List.range'_zero, Nat.add_zero] at hfold
      simp only [hfold]
    | ok r =>
      rw [hr] at hfold
      simp only [List.zipIdx_nil, List.map_nil, List.range'_zero, Nat.add_zero, List.nil_append] at hfold
      obtain ⟨u', last', q1, q2, q3, q4⟩ := hfold
      simp only [q1]
      rw [foldl_wordReq m (v.user.last + 1) r 0 [] (by simp)]
      obtain ⟨h1, h2, h3, h4⟩ := hg
      have hcopy : (ofMG g).copy cfg.labelCodec cfg.attrCodec = .ok (ofMG g) := by
        rw [copy_ofMG h1 (fun x _ => hc.labels x) (fun e _ kv _ => hc.attrs kv.2) (fun p _ kv _ => hc.attrs kv.2)]
        congr 2
        rw [← h2]
      obtain ⟨g', r1, r2, r3, r4⟩ := removals_all (List.range' a w.length) h1 (nodup_range'_one _ _) (fun x hx => by rw [h3]; exact hx)
      have hg' : g' = MG.empty := by
        apply eq_empty_of_labels r2 (by rw [r3, h2])
        rw [r4, h3, List.filter_eq_nil_iff]
        intro x hx
        simp [hx]
      rw [hg'] at r1
      obtain ⟨g2, s1, s2⟩ := wordNet_insert cfg m (v.user.last + 1) r
      have hne : (List.range' a w.length).isEmpty = false := by
        rw [show w.length = (w.length - 1) + 1 by omega, List.range'_succ]; rfl
      have htopo : topoV cfg v.hist.length ([] ++ wordDict (v.user.last + 1 + 0) r) (ofMG g)
          ((r.zipIdx).map (wordReq m (v.user.last + 1))) (List.range' a w.length) u' = .ok (ofMG g2, u') := by
        unfold topoV reqsV
        rw [hne, Bool.and_false]
        simp only [Bool.false_eq_true, if_false, hcopy]
        have : applyReqs cfg ((r.zipIdx).map (wordReq m (v.user.last + 1))) (List.range' a w.length) (ofMG g) = (.ok (), ofMG g2) := by
          show NetM.bind (NetM.forEach (List.range' a w.length) Net.removeNode) _ (ofMG g) = _
          unfold NetM.bind
          rw [r1]
          exact s1
        rw [this]
        simp only [hc.top]
      rw [htopo]
      simp only [hne, Bool.and_false, Bool.false_eq_true, if_false]
      refine ⟨_, v.user.last + 1, rfl, ⟨⟨_, g2, by simp, rfl, s2⟩, rfl, Or.inr (Or.inl ?_), by simp⟩, rfl, by simp⟩
      simp only [List.length_append, List.length_singleton]
      rw [q4 hlen]
      omega

/-- The history shows the words. -/
def ShowsWords (m : Nat) (sub : List V → Except Err (List V)) (w0 : List V) (hist : List (Dict Nat V × Net Nat A)) : Prop :=
  ∀ (s : Nat) (p : Dict Nat V × Net Nat A), hist[s]? = some p → ∃ b w, words m sub w0 s = .ok w ∧ p.1 = wordDict b w

theorem word_loop {cfg : Config Nat A V I SubstState κ} {str : V → List C} {dtype : C → Except Err V}
    {rules : Dict (List C) (List C)} {m T : Nat} (hc : SubstRun cfg str dtype rules m T) (ks : KeySpec Nat A V I κ) {w0 : List V}
    (k : Nat) : ∀ (fuel : Nat) (w : List V) (v : VLoop Nat A V SubstState κ), k < fuel → v.hist.length + k = T →
    WordLoop m w v → words m (replacement str dtype rules.get?) w0 (v.hist.length - 1) = .ok w →
    ShowsWords m (replacement str dtype rules.get?) w0 v.hist →
    match vloop cfg ks fuel v with
    | .error e => ∃ j, j < T ∧ words m (replacement str dtype rules.get?) w0 j = .error e
    | .ok v' => v'.hist.length = T ∧ ShowsWords m (replacement str dtype rules.get?) w0 v'.hist := by
  induction k with
  | zero =>
    intro fuel w v hf hT hv _ hs
    obtain ⟨fuel, rfl⟩ : ∃ f, fuel = f + 1 := ⟨fuel - 1, by omega⟩
    unfold vloop callInput
    rw [hc.input]
    simp only [show ((v.hist.length : Int) = (T : Int)) from by omega, if_true]
    exact ⟨by omega, hs⟩
  | succ k ih =>
    intro fuel w v hf hT hv hw hs
    obtain ⟨fuel, rfl⟩ : ∃ f, fuel = f + 1 := ⟨fuel - 1, by omega⟩
    unfold vloop callInput
    rw [hc.input]
    simp only [show ¬ ((v.hist.length : Int) = (T : Int)) from by omega, if_false]
    have hstep := word_step hc ks hv
    have hnext : words m (replacement str dtype rules.get?) w0 v.hist.length = rewrite m (replacement str dtype rules.get?) w := by
      have hp := hv.pos
      obtain ⟨n, hn⟩ : ∃ n, v.hist.length = n + 1 := ⟨v.hist.length - 1, by omega⟩
      rw [hn] at hw ⊢
      rw [Nat.add_sub_cancel] at hw
      simp only [words, hw]
    cases hr : rewrite m (replacement str dtype rules.get?) w with
    | error e =>
      rw [hr] at hstep hnext
      simp only at hstep
      rw [hstep]
      exact ⟨v.hist.length, by omega, hnext⟩
    | ok r =>
      rw [hr] at hstep hnext
      simp only at hstep
      obtain ⟨v', b, e1, e2, e3, e4⟩ := hstep
      rw [e1]
      have hl : v'.hist.length = v.hist.length + 1 := by rw [e3]; simp
      apply ih fuel r v' (by omega) (by omega) e2 (by rw [hl]; exact hnext)
      intro s p hp
      rw [e3, List.getElem?_append] at hp
      split at hp
      · exact hs s p hp
      · rename_i hlt
        rw [List.getElem?_singleton] at hp
        split at hp
        · rename_i h0
          have hse : s = v.hist.length := by omega
          subst hse
          cases hp
          exact ⟨b, r, hnext, e4⟩
        · cases hp

omit [DecidableEq C] [DecidableEq V] in
theorem words_error {m : Nat} {sub : List V → Except Err (List V)} {w0 : List V} {j : Nat} {e : Err} (h : words m sub w0 j = .error e)
    (d : Nat) : words m sub w0 (j + d) = .error e := by
  induction d with
  | zero => exact h
  | succ d ih =>
    rw [← Nat.add_assoc]
    simp only [words, ih]

/-- The whole run on values. -/
theorem word_run {cfg : Config Nat A V I SubstState κ} {str : V → List C} {dtype : C → Except Err V}
    {rules : Dict (List C) (List C)} {m T : Nat} (hc : SubstRun cfg str dtype rules m T) (hT : 1 ≤ T) (w0 : List V)
    (hnat : cfg.natLabel = id) (u : SubstState) (hu : u.lastT ≠ 1 ∨ u.added = 0) {fuel : Nat} (hf : T ≤ fuel) :
    match words m (replacement str dtype rules.get?) w0 (T - 1) with
    | .error e => vevolve fuel cfg (some (.list w0)) (substNetwork m w0.length) u = .error e
    | .ok _ => ∃ v, vevolve fuel cfg (some (.list w0)) (substNetwork m w0.length) u = .ok v ∧ v.hist.length = T ∧
        ShowsWords m (replacement str dtype rules.get?) w0 v.hist := by
  obtain ⟨g, g1, g2⟩ := wordNet_axiom (A := A) m w0.length hc.size
  have hd : initDict cfg (some (.list w0)) = wordDict 0 w0 := by
    unfold initDict Conds.toDict wordDict
    rw [hnat]
    exact ofPairs_nodup _ (by
      have := nodup_wordDict 0 w0
      exact this)
  have hck : vcheck cfg (initDict cfg (some (.list w0))) (substNetwork m w0.length) = .ok () := by
    unfold vcheck
    rw [hc.input, hd]
    have h1 : (wordDict 0 w0).length = w0.length := by simp [wordDict]
    have h2 : (substNetwork m w0.length : Net Nat A).size = w0.length := by
      have : (ofMG g).labels.length = w0.length := by rw [labels_ofMG, g2.2.2.1, List.length_range']
      rw [g1]
      simpa [Net.labels, Dict.keys, Net.size] using this
    simp [h1, h2]
  have hloop := word_loop hc (effectiveKey cfg (substNetwork m w0.length)) (w0 := w0) (T - 1) fuel w0
    (vinit cfg (wordDict 0 w0) (substNetwork m w0.length) u) (by omega) (by simp [vinit]; omega)
    ⟨⟨0, g, rfl, g1, g2⟩, by simp [vinit, hc.top], Or.inr (by simpa [vinit] using hu), by simp [vinit]⟩ rfl
    (by
      intro s p hp
      simp only [vinit, List.getElem?_singleton] at hp
      split at hp
      · rename_i h0
        subst h0
        cases hp
        exact ⟨0, w0, rfl, rfl⟩
      · cases hp)
  unfold vevolve
  rw [hck, hd]
  simp only
  cases hv : vloop cfg (effectiveKey cfg (substNetwork m w0.length)) fuel (vinit cfg (wordDict 0 w0) (substNetwork m w0.length) u) with
  | error e =>
    rw [hv] at hloop
    obtain ⟨j, hj, hje⟩ := hloop
    have := words_error hje (T - 1 - j)
    rw [show j + (T - 1 - j) = T - 1 by omega] at this
    rw [this]
  | ok v =>
    rw [hv] at hloop
    simp only at hloop
    obtain ⟨h1, h2⟩ := hloop
    have hlast : v.hist[T - 1]? = some v.hist[T - 1] := List.getElem?_eq_getElem (by omega)
    obtain ⟨b, w, h3, _⟩ := h2 (T - 1) _ hlast
    rw [h3]
    exact ⟨v, rfl, h1, h2⟩

end
end Verif
