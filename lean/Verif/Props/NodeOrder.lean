import Verif.Props.Symmetry
/-! # Property C15: the order in which the nodes are visited does not matter -/

namespace Verif
section
variable {L A V I σ κ : Type} [DecidableEq L] [DecidableEq V] [DecidableEq κ]

/-- The same network with its nodes stored, and so visited, in another order. -/
structure Reordered (n n' : Net L A) : Prop where
  nodes : n.nodes.Perm n'.nodes
  rotation : n.rotation = n'.rotation

theorem get?_perm {W : Type} {d d' : Dict L W} (h : d.Perm d') (hd : d.keys.Nodup) (x : L) : d.get? x = d'.get? x := by
  have hd' : d'.keys.Nodup := (h.map Prod.fst).nodup_iff.1 hd
  cases hx : d'.get? x with
  | none =>
    rw [Dict.get?_eq_none_iff] at hx ⊢
    exact fun hm => hx ((h.map Prod.fst).mem_iff.1 hm)
  | some v =>
    rw [Dict.get?_eq_some_iff hd'] at hx
    rw [Dict.get?_eq_some_iff hd]
    exact h.mem_iff.2 hx

omit [DecidableEq L] in
theorem Reordered.labels {n n' : Net L A} (h : Reordered n n') : n.labels.Perm n'.labels := h.nodes.map Prod.fst

theorem Reordered.get {n n' : Net L A} (h : Reordered n n') (hn : n.labels.Nodup) (x : L) :
    n.nodes.get? x = n'.nodes.get? x := get?_perm h.nodes hn x

theorem get_of_get? {W : Type} {d d' : Dict L W} {x : L} (h : d.get? x = d'.get? x) : d.get x = d'.get x := by
  unfold Dict.get
  rw [h]

theorem get?_zip_mapE {W : Type} (f : L → Except Err W) : ∀ (l : List L) (vs : List W), mapE f l = .ok vs → ∀ x,
    (if x ∈ l then ∃ v, f x = .ok v ∧ Dict.get? (l.zip vs) x = some v else Dict.get? (l.zip vs) x = none) := by
  intro l
  induction l with
  | nil => intro vs _ x; simp
  | cons a l ih =>
    intro vs h x
    unfold mapE at h
    cases ha : f a with
    | error e => rw [ha] at h; cases h
    | ok v =>
      rw [ha] at h
      cases hm : mapE f l with
      | error e => rw [hm] at h; cases h
      | ok ws =>
        rw [hm] at h
        cases h
        have := ih ws hm x
        rw [List.zip_cons_cons, Dict.get?_cons]
        by_cases hxa : a = x
        · subst hxa
          simp [ha]
        · simp only [List.mem_cons, if_neg hxa]
          by_cases hx : x ∈ l
          · rw [if_pos (Or.inr hx)]
            rw [if_pos hx] at this
            exact this
          · rw [if_neg (by simp [hx, Ne.symm hxa])]
            rw [if_neg hx] at this
            exact this

omit [DecidableEq L] in
theorem mapE_ok_all {W : Type} {f : L → Except Err W} {l : List L} :
    (∃ vs, mapE f l = .ok vs) ↔ ∀ x ∈ l, ∃ v, f x = .ok v := by
  induction l with
  | nil => simp [mapE]
  | cons a l ih =>
    unfold mapE
    cases ha : f a with
    | error e => simp [ha]
    | ok v =>
      simp only [List.forall_mem_cons, ha, Except.ok.injEq, exists_eq', true_and, ← ih]
      cases mapE f l with
      | error e => simp
      | ok vs => simp

/-- C15, one timestep.  For a stateless rule (and a stateless perturbation, if any), two orders of the same network, and
given activities, past, input and neighbourhoods: the timestep raises in both orders or in none, and otherwise both
orders compute the same activities as a mapping. -/
theorem C15_timestep (cfg : Config L A V I σ κ) (G : NodeCtx L A V I → Except Err V) (hG : cfg.PureRule G)
    (P : Option (PertCtx L V I → Except Err V)) (hP : cfg.PurePert P) (hm : cfg.memoize = false) (n n' : Net L A)
    (hn : n.labels.Nodup) (h : Reordered n n') (ks : KeySpec L A V I κ) (t : Nat) (inp : Inp I) (prev : Dict L V)
    (past : Option (List (Option (Dict L V)))) (nmap : Option (Dict L (List L))) (memo : Memo V κ) (u : σ) :
    (∃ e e', computeActs cfg ks t inp prev n past nmap memo u = .error e ∧
      computeActs cfg ks t inp prev n' past nmap memo u = .error e') ∨
    ∃ acc acc', computeActs cfg ks t inp prev n past nmap memo u = .ok acc ∧
      computeActs cfg ks t inp prev n' past nmap memo u = .ok acc' ∧ acc.user = acc'.user ∧
      (∀ x, acc.curr.get? x = acc'.curr.get? x) ∧ acc.curr.keys = n.labels ∧ acc'.curr.keys = n'.labels := by
  have hn' : n'.labels.Nodup := h.labels.nodup_iff.1 hn
  rw [computeActs_pure hG hP hm ks t inp prev n hn, computeActs_pure hG hP hm ks t inp prev n' hn']
  have hctx : ∀ x, mkCtx cfg t inp prev n' past nmap x = mkCtx cfg t inp prev n past nmap x := by
    intro x
    unfold mkCtx Net.inEdges neighbourLabels
    rw [get_of_get? (h.get hn x), h.rotation]
  have hval : nodeVal cfg G P t inp prev n' past nmap = nodeVal cfg G P t inp prev n past nmap := by
    funext x
    unfold nodeVal
    rw [hctx]
  rw [hval]
  cases h1 : mapE (nodeVal cfg G P t inp prev n past nmap) n.labels with
  | error e =>
    cases h2 : mapE (nodeVal cfg G P t inp prev n past nmap) n'.labels with
    | error e' => exact Or.inl ⟨e, e', rfl, rfl⟩
    | ok vs =>
      obtain ⟨vs', h3⟩ := mapE_ok_all.2 (fun x hx => mapE_ok_all.1 ⟨vs, h2⟩ x (h.labels.mem_iff.1 hx))
      rw [h1] at h3; cases h3
  | ok vs =>
    obtain ⟨vs', h3⟩ := mapE_ok_all.2 (fun x hx => mapE_ok_all.1 ⟨vs, h1⟩ x (h.labels.mem_iff.2 hx))
    rw [h3]
    refine Or.inr ⟨_, _, rfl, rfl, rfl, ?_, ?_, ?_⟩
    · intro x
      have a := get?_zip_mapE _ _ _ h1 x
      have b := get?_zip_mapE _ _ _ h3 x
      by_cases hx : x ∈ n.labels
      · rw [if_pos hx] at a
        rw [if_pos (h.labels.mem_iff.1 hx)] at b
        obtain ⟨v, a1, a2⟩ := a
        obtain ⟨v', b1, b2⟩ := b
        rw [a1] at b1
        cases b1
        exact a2.trans b2.symm
      · rw [if_neg hx] at a
        rw [if_neg (fun e => hx (h.labels.mem_iff.2 e))] at b
        exact a.trans b.symm
    · have := congrArg List.length (mapE_ok_iff.1 h1)
      simp only [List.length_map] at this
      exact List.map_fst_zip (by omega)
    · have := congrArg List.length (mapE_ok_iff.1 h3)
      simp only [List.length_map] at this
      exact List.map_fst_zip (by omega)

/-- The rule looks at the dictionaries it is given only as mappings. -/
def MappingRule (G : NodeCtx L A V I → Except Err V) : Prop :=
  ∀ c : NodeCtx L A V I, ∀ acts, (∀ y, acts.get? y = c.activities.get? y) → G { c with activities := acts } = G c

theorem Reordered.nbrs {n n' : Net L A} (h : Reordered n n') (hn : n.labels.Nodup) (x : L) :
    specNbrs n' x = specNbrs n x := by
  unfold specNbrs
  rw [h.rotation, h.get hn]

omit [DecidableEq V] in
theorem get?_plainActs_perm {n n' : Net L A} (h : Reordered n n') (d : Dict L V) (f : Nat → L → V) (t : Nat) (y : L) :
    (plainActs n'.labels d f t).get? y = (plainActs n.labels d f t).get? y := by
  unfold plainActs
  split
  · rfl
  · rw [Dict.get?_ofKeys, Dict.get?_ofKeys]
    simp only [h.labels.mem_iff]

omit [DecidableEq V] [DecidableEq κ] in
theorem initDict_memo (cfg : Config L A V I σ κ) (init : Option (Conds L V)) :
    initDict { cfg with memoize := false } init = initDict cfg init := by cases init <;> rfl

/-- A finished run with a rule had one initial condition per node. -/
theorem evolve_len {cfg : Config L A V I σ κ} {G : NodeCtx L A V I → Except Err V} (hG : cfg.PureRule G) {n : Net L A}
    {r : Nat} {w : World L A σ} (hr : w.heap[r]? = some n) {m : Bool} {fuel : Nat} {init : Option (Conds L V)}
    {res : Evolved L A V σ} (he : evolve fuel { cfg with memoize := m } init r w = .ok res) :
    (initDict cfg init).length = n.size := by
  unfold evolve at he
  have e : initDict { cfg with memoize := m } init = initDict cfg init := by cases init <;> rfl
  rw [e] at he
  have hd : w.deref r = n := by simp [World.deref, hr]
  apply Classical.byContradiction
  intro hne
  have hrs : cfg.rule.isSome = true := by rw [hG]; rfl
  cases hi : evolveInit { cfg with memoize := m } (initDict cfg init) r w with
  | error e => rw [hi] at he; cases he
  | ok s =>
    unfold evolveInit at hi
    rw [hd] at hi
    simp only [ne_eq, hne, not_false_eq_true, hrs, and_self, if_true] at hi
    split at hi <;> cases hi

/-- C15, whole runs without past conditions: if the run on one order of the network returns, so does the run on any other
order, and all states agree as mappings.  The rule is stateless, may raise, and looks at `ctx.activities` only as a
mapping (that dictionary is filled in the order of the nodes). -/
theorem C15_run [Inhabited V] (cfg : Config L A V I σ κ) (T : Nat) (hT : 1 ≤ T) (G : NodeCtx L A V I → Except Err V)
    (hG : MappingRule G) (h : cfg.Ordinary G T) (hpast : cfg.past = []) (n n' : Net L A) (hn : n.labels.Nodup)
    (hcl : NetClosed n) (hre : Reordered n n') (hk : cfg.memoize = true → MemoSafe cfg.key n.rotation.isSome G)
    (r r' : Nat) (w w' : World L A σ) (hr : w.heap[r]? = some n) (hr' : w'.heap[r']? = some n')
    (init : Option (Conds L V)) (hi : ∀ x ∈ n.labels, x ∈ (initDict cfg init).keys) (fuel : Nat) (hf : T ≤ fuel)
    (res : Evolved L A V σ) (he : evolve fuel cfg init r w = .ok res) :
    ∃ res', evolve fuel cfg init r' w' = .ok res' ∧ res.states.length = T ∧ res'.states.length = T ∧
      ∀ t, t < T → ∀ x ∈ n.labels, ∃ d d' v, res.acts cfg t = some d ∧ res'.acts cfg t = some d' ∧ d.get? x = some v ∧
        d'.get? x = some v := by
  have hn' : n'.labels.Nodup := hre.labels.nodup_iff.1 hn
  rw [evolve_memo_off h hr hk] at he
  rw [evolve_memo_off h hr' (by rw [← hre.rotation]; exact hk)]
  have h0 : ({ cfg with memoize := false } : Config L A V I σ κ).Ordinary G T :=
    ⟨h.rule, h.pert, h.top, h.input, h.key, h.persist, h.compression⟩
  have hpk : ({ cfg with memoize := false } : Config L A V I σ κ).PackOk := by
    intro hc; rw [h0.compression] at hc; cases hc
  let nb : L → List L := fun x => (specNbrs n x).getD []
  have hnb : ∀ x ∈ n.labels, specNbrs n x = some (nb x) ∧ ∀ y ∈ nb x, y ∈ n.labels := by
    intro x hx
    obtain ⟨l, h1, h2⟩ := hcl x hx
    have : nb x = l := by show (specNbrs n x).getD [] = l; rw [h1]; rfl
    rw [this]
    exact ⟨h1, h2⟩
  have hnb' : ∀ x ∈ n'.labels, specNbrs n' x = some (nb x) ∧ ∀ y ∈ nb x, y ∈ n'.labels := by
    intro x hx
    obtain ⟨h1, h2⟩ := hnb x (hre.labels.mem_iff.2 hx)
    rw [hre.nbrs hn]
    exact ⟨h1, fun y hy => hre.labels.mem_iff.1 (h2 y hy)⟩
  have hi0 : ∀ x ∈ n.labels, (initDict cfg init).get? x = some (((initDict cfg init).get? x).getD default) := by
    intro x hx
    obtain ⟨v, hv⟩ := Dict.exists_get?_of_mem_keys (hi x hx)
    rw [hv]; rfl
  have hlen : (initDict cfg init).length = n.size := evolve_len h.rule hr he
  obtain ⟨F, a1, a2, a3⟩ := pure_of_evolve h0.rule h0.pert rfl h0.top hpk hn hnb (init := init)
    (f0 := fun x => ((initDict cfg init).get? x).getD default) hi0 hT h0.input hr hf he
  have hF0 : ∀ x ∈ n.labels, (initDict cfg init).get? x = some (F 0 x) := fun x hx => by rw [a1 x hx]; exact hi0 x hx
  have hsize : n'.size = n.size := by
    show n'.nodes.length = n.nodes.length
    exact hre.nodes.length_eq.symm
  obtain ⟨res', ext, e1, _, e3⟩ := evolve_pure (cfg := { cfg with memoize := false }) (n := n') h0.rule h0.pert h0.top hpk
    hn' hnb' (init := init) (f := F) (T := T) (by rw [hsize]; exact hlen)
    (fun x hx => hF0 x (hre.labels.mem_iff.2 hx))
    (by
      intro t ht x hx
      rw [← a2 t ht x (hre.labels.mem_iff.2 hx), initDict_memo, ← hG (plainCtx { cfg with memoize := false } n nb (initDict cfg init) F t x)
        (plainActs n'.labels (initDict cfg init) F t) (get?_plainActs_perm hre _ _ _)]
      have hp : ∀ hist, specPast { cfg with memoize := false } hist (t + 1) = none := by
        intro hist
        unfold specPast
        rw [show ({ cfg with memoize := false } : Config L A V I σ κ).past = cfg.past from rfl, hpast]
        rfl
      unfold plainCtx runCtx
      simp only [hp, hre.get hn])
    (by intro hm; cases hm) hT h0.input hr' hf
  have shows : ∀ (m : Net L A) (res : Evolved L A V σ), (∀ x, x ∈ m.labels ↔ x ∈ n.labels) →
      Observes { cfg with memoize := false } res
        ((List.range T).map (fun s => (plainActs m.labels (initDict cfg init) F s, m))) →
      ∀ t, t < T → ∀ x ∈ n.labels, ∃ d, res.acts cfg t = some d ∧ d.get? x = some (F t x) := by
    intro m res hm ho t ht x hx
    have hg := get?_plainActs (labels := m.labels) (fun y hy => hF0 y ((hm y).1 hy)) t ((hm x).2 hx)
    have hne : (plainActs m.labels (initDict cfg init) F t).isEmpty = false := by
      cases hp : plainActs m.labels (initDict cfg init) F t with
      | nil => rw [hp] at hg; cases hg
      | cons a l => rfl
    have : res.acts cfg t = _ := ho.acts t
    rw [this]
    simp only [List.getElem?_map, List.getElem?_range ht, Option.map_some, Option.bind_some, obsActs]
    rw [if_pos ⟨Or.inr h.persist, hne⟩, h.compression]
    exact ⟨_, rfl, by simpa using hg⟩
  refine ⟨res', e1, by rw [a3.len]; simp, by rw [e3.len]; simp, ?_⟩
  intro t ht x hx
  obtain ⟨d, d1, d2⟩ := shows n res (fun _ => Iff.rfl) a3 t ht x hx
  obtain ⟨d', d1', d2'⟩ := shows n' res' (fun y => hre.labels.mem_iff.symm) e3 t ht x hx
  exact ⟨d, d', F t x, d1, d1', d2, d2'⟩

end

/-- The triangle with its nodes stored in reverse order. -/
def triRev : Net Nat Int := { Ex.tri with nodes := Ex.tri.nodes.reverse }

example : Reordered Ex.tri triRev ∧ Ex.tri.labels = [0, 1, 2] ∧ triRev.labels = [2, 1, 0] :=
  ⟨⟨(List.reverse_perm _).symm, rfl⟩, by decide, by decide⟩

example : MappingRule (fun c => (.ok (Ex.sumRule c) : Except Err Int)) := fun _ _ _ => rfl

example :
    let cfg := { Ex.base with rule := some (pureRule (fun c => .ok (Ex.sumRule c))), input := .timesteps 3 }
    Ex.runActs 3 cfg [1, 2, 5] Ex.tri = .ok [some [(0, 1), (1, 2), (2, 5)], some [(0, 7), (1, 2), (2, 3)],
      some [(0, 12), (1, 9), (2, 4)]] ∧
    Ex.runActs 3 cfg [1, 2, 5] triRev = .ok [some [(0, 1), (1, 2), (2, 5)], some [(2, 3), (1, 2), (0, 7)],
      some [(2, 4), (1, 9), (0, 12)]] := by decide +kernel

/-- With a rule that keeps state the order matters. -/
example :
    let rule : NodeCtx Nat Int Int Int → List Int → Except Err (RuleOut Nat Int Int × List Int) :=
      fun _ u => .ok (⟨(u.length : Int), [], []⟩, u ++ [0])
    let cfg := { Ex.base with rule := some rule, input := .timesteps 2 }
    Ex.runActs 2 cfg [1, 2, 5] Ex.tri = .ok [some [(0, 1), (1, 2), (2, 5)], some [(0, 0), (1, 1), (2, 2)]] ∧
    Ex.runActs 2 cfg [1, 2, 5] triRev = .ok [some [(0, 1), (1, 2), (2, 5)], some [(2, 0), (1, 1), (0, 2)]] := by
  decide +kernel

end Verif
