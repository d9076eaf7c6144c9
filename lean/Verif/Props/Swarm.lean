import Verif.Proofs.Swarm
import Verif.Spec.Dynamics
import Verif.Proofs.CARun
import Verif.Proofs.Growth
import Verif.Props.Dynamics
/-! # C108: the particle swarm demos -/

namespace Verif
open Spec MG
section
variable {L A κ : Type} [DecidableEq L] [DecidableEq κ]

/-- The call of the global version: `T` timesteps given by the input function, the state is the variable `g`. -/
structure SwarmCall (cfg : Config L A Particle (Dict L Particle) (Option (List Rat)) κ) (f : List Rat → Rat) (k : Coeffs)
    (draws : Nat → L → List Rat × List Rat) (T : Nat) : Prop where
  rule : cfg.rule = some (psoRule f k draws)
  perturbation : cfg.perturbation = none
  topology : cfg.topology = none
  input : cfg.input = .fn (psoInput T)
  memoize : cfg.memoize = false
  persist : cfg.persistActs = true
  compression : cfg.compression = false

/-- A swarm in which every particle knows its best position and `g` is the best one of these. -/
structure SwarmOk (f : List Rat → Rat) (dim : Nat) (ls : List L) (cur : L → Particle) (g : List Rat) : Prop where
  dims : ∀ x ∈ ls, Particle.Dim dim (cur x)
  len : g.length = dim
  some : ∃ x ∈ ls, g = (cur x).p
  le : ∀ x ∈ ls, f g ≤ f (cur x).p

/-- Activities of the nodes `ls`. -/
def ActsAre (ls : List L) (d : Dict L Particle) (cur : L → Particle) : Prop :=
  d.length = ls.length ∧ ∀ x ∈ ls, d.get? x = some (cur x)

omit [DecidableEq L] [DecidableEq κ] in
theorem psoStart_le (f : List Rat → Rat) {drawn : List (L × List Rat × List Rat)} (hne : drawn ≠ []) :
    ∃ g, (psoStart f drawn).2 = some g ∧ (∃ e ∈ drawn, g = e.2.1) ∧ ∀ e ∈ drawn, f g ≤ f e.2.1 := by
  obtain ⟨g, h1, ⟨a, ha, h2⟩, h3⟩ := bestSolution_spec f (l := drawn.map (fun e => (⟨e.2.1, e.2.1, e.2.2⟩ : Particle))) (by simpa using hne)
  have hfold : ∀ (l : List (L × List Rat × List Rat)) (g0 : Option (List Rat)), l.foldl (fun g e => match g with
      | none => some e.2.1
      | some g => if f e.2.1 < f g then some e.2.1 else some g) g0 =
      (l.map (fun e => (⟨e.2.1, e.2.1, e.2.2⟩ : Particle))).foldl (fun g a => match g with
      | none => some a.p
      | some g => if f a.p < f g then some a.p else some g) g0 := by
    intro l g0
    rw [List.foldl_map]
  refine ⟨g, ?_, ?_, ?_⟩
  · unfold psoStart
    exact (hfold drawn none).trans h1
  · obtain ⟨e, he, rfl⟩ := List.mem_map.1 ha
    exact ⟨e, he, h2⟩
  · intro e he
    exact h3 _ (List.mem_map.2 ⟨e, he, rfl⟩)

/-- From one state of the swarm to the next. -/
theorem swarm_step {f : List Rat → Rat} {k : Coeffs} {r : L → List Rat × List Rat} {dim : Nat} {ls : List L} (hn : ls.Nodup)
    (hr : ∀ x ∈ ls, (r x).1.length = dim ∧ (r x).2.length = dim) {cur : L → Particle} {g : List Rat} (h : SwarmOk f dim ls cur g) :
    ∃ cur' g', (seqRun (psoStep f k r cur) ls (some g)).2 = some g' ∧ ActsAre ls (seqRun (psoStep f k r cur) ls (some g)).1 cur' ∧
      SwarmOk f dim ls cur' g' ∧ ∀ before x after, ls = before ++ x :: after →
        f (cur' x).p ≤ f (cur x).p ∧ f (cur' x).p ≤ f (cur' x).x ∧ ((cur' x).p = (cur x).p ∨ (cur' x).p = (cur' x).x) ∧
        ∃ g1, Moves dim k.inertia k.cognitive k.social (r x).1 (r x).2 g1 (cur x) (cur' x) ∧ (g1 = g ∨ ∃ y ∈ before, g1 = (cur' y).p) ∧
          f g1 ≤ f g ∧ ∀ y ∈ before, f g1 ≤ f (cur' y).p := by
  let res := (seqRun (psoStep f k r cur) ls (some g)).1
  let cur' : L → Particle := fun x => ((res.get? x)).getD ⟨[], [], []⟩
  have hval : ∀ before x after, ls = before ++ x :: after →
      res.get? x = some (psoStep f k r cur x (seqRun (psoStep f k r cur) before (some g)).2).1 :=
    fun before x after hl => get?_seqRun _ hl hn _
  have hcur : ∀ before x after, ls = before ++ x :: after → cur' x = (psoStep f k r cur x (seqRun (psoStep f k r cur) before (some g)).2).1 := by
    intro before x after hl
    show (res.get? x).getD _ = _
    rw [hval before x after hl]
    rfl
  have hpre := psoPrefix (k := k) h.len hr h.dims h.le
  have hsplit : ∀ x ∈ ls, ∃ before after, ls = before ++ x :: after := fun x hx => List.append_of_mem hx
  obtain ⟨g', e1, e2, e3, e4, e5⟩ := hpre ls (fun x hx => hx)
  have hx : ∀ before x after, ls = before ++ x :: after → ∃ g1, cur' x = moved f k (r x) (cur x) g1 ∧ g1.length = dim ∧
      (g1 = g ∨ ∃ y ∈ before, g1 = (cur' y).p) ∧ f g1 ≤ f g ∧ ∀ y ∈ before, f g1 ≤ f (cur' y).p := by
    intro before x after hl
    obtain ⟨g1, a1, a2, a3, a4, a5⟩ := hpre before (fun y hy => by rw [hl]; simp [hy])
    refine ⟨g1, ?_, a2, ?_, a3, ?_⟩
    · rw [hcur before x after hl, a1]
      rfl
    · rcases a4 with a4 | ⟨d, y, e, b1, b2⟩
      · exact Or.inl a4
      · refine Or.inr ⟨y, by rw [b1]; simp, ?_⟩
        rw [b2, hcur d y (e ++ x :: after) (by rw [hl, b1]; simp)]
    · intro y hy
      obtain ⟨d, e, b1⟩ := List.append_of_mem hy
      rw [hcur d y (e ++ x :: after) (by rw [hl, b1]; simp)]
      exact a5 d y e b1
  refine ⟨cur', g', e1, ⟨?_, ?_⟩, ⟨?_, e2, ?_, ?_⟩, ?_⟩
  · have := congrArg List.length (keys_seqRun (psoStep f k r cur) ls (some g))
    simpa [Dict.keys] using this
  · intro x hx'
    obtain ⟨b, a, hl⟩ := hsplit x hx'
    rw [hcur b x a hl]
    exact hval b x a hl
  · intro x hx'
    obtain ⟨b, a, hl⟩ := hsplit x hx'
    obtain ⟨g1, c1, c2, _⟩ := hx b x a hl
    rw [c1]
    exact (moves_moved (h.dims x hx') c2 (hr x hx').1 (hr x hx').2).dims
  · rcases e4 with rfl | ⟨d, y, e, b1, b2⟩
    · obtain ⟨x, hx', hgx⟩ := h.some
      obtain ⟨b, a, hl⟩ := hsplit x hx'
      refine ⟨x, hx', ?_⟩
      obtain ⟨g1, c1, _⟩ := hx b x a hl
      have hle := e5 b x a hl
      rw [← hcur b x a hl, c1] at hle
      rw [c1]
      rcases moved_p (f := f) (k := k) (r := r x) (a := cur x) (g := g1) with ⟨h1, _⟩ | ⟨h1, h2⟩
      · rw [h1]; exact hgx
      · rw [h1] at hle
        rw [← hgx] at h2
        exact absurd h2 (by grind)
    · exact ⟨y, by rw [b1]; simp, by rw [b2, hcur d y e b1]⟩
  · intro x hx'
    obtain ⟨b, a, hl⟩ := hsplit x hx'
    rw [hcur b x a hl]
    exact e5 b x a hl
  · intro b x a hl
    have hx' : x ∈ ls := by rw [hl]; simp
    obtain ⟨g1, c1, c2, c3, c4, c5⟩ := hx b x a hl
    refine ⟨by rw [c1]; exact moved_le.1, by rw [c1]; exact moved_le.2, ?_, g1, ?_, c3, c4, c5⟩
    · rw [c1]
      rcases moved_p (f := f) (k := k) (r := r x) (a := cur x) (g := g1) with ⟨h1, _⟩ | ⟨h1, _⟩
      · exact Or.inl h1
      · exact Or.inr h1
    · rw [c1]
      exact moves_moved (h.dims x hx') c2 (hr x hx').1 (hr x hx').2

/-- The personal bests of a trajectory. -/
theorem best_of_steps {f : List Rat → Rat} {P : Nat → Particle} {T : Nat} (h0 : (P 0).p = (P 0).x)
    (hs : ∀ t, t + 1 < T → f (P (t + 1)).p ≤ f (P t).p ∧ f (P (t + 1)).p ≤ f (P (t + 1)).x ∧
      ((P (t + 1)).p = (P t).p ∨ (P (t + 1)).p = (P (t + 1)).x)) :
    ∀ t, t < T → BestSoFar f (fun s => (P s).x) t (P t).p := by
  intro t
  induction t with
  | zero =>
    intro _
    refine ⟨⟨0, Nat.le_refl 0, h0⟩, ?_⟩
    intro s hs
    rw [show s = 0 by omega, h0]
    exact Rat.le_refl
  | succ t ih =>
    intro ht
    obtain ⟨⟨s, i1, i2⟩, i3⟩ := ih (by omega)
    obtain ⟨a1, a2, a3⟩ := hs t ht
    refine ⟨?_, ?_⟩
    · rcases a3 with a3 | a3
      · exact ⟨s, by omega, by rw [a3, i2]⟩
      · exact ⟨t + 1, Nat.le_refl _, a3⟩
    · intro s hs
      by_cases e : s = t + 1
      · rw [e]; exact a2
      · have := i3 s (by omega)
        exact Rat.le_trans a1 this

/-- C108.  The global particle swarm on any network, for any objective function and any random numbers.  There are particles `P t i` and best positions
`G t` such that the states show the particles, the variable `g` ends as `G (T - 1)`, every particle's `p` is a best position it has visited, and `G t` is a
best position visited by any of them.  A particle moves by the formula with its own best position and the best position known when it is visited: `G t`,
or the improvement of a node before it. -/
theorem C108_global {cfg : Config L A Particle (Dict L Particle) (Option (List Rat)) κ} {f : List Rat → Rat} {k : Coeffs}
    {draws : Nat → L → List Rat × List Rat} {T : Nat} (h : SwarmCall cfg f k draws T) (hT : 1 ≤ T) {g0 : MG L A} (hg : g0.Valid) (hrot : g0.rot = none)
    (hne : g0.labels ≠ []) {dim : Nat} (hdr : ∀ t, ∀ x ∈ g0.labels, (draws t x).1.length = dim ∧ (draws t x).2.length = dim)
    {drawn : List (L × List Rat × List Rat)} (hkeys : drawn.map Prod.fst = g0.labels) (hdim : ∀ e ∈ drawn, e.2.1.length = dim ∧ e.2.2.length = dim)
    {init : Option (Conds L Particle)} (hinit : initDict cfg init = (psoStart f drawn).1) {r : Nat} {w : World L A (Option (List Rat))}
    (hr : w.heap[r]? = some (ofMG g0)) (hu : w.user = (psoStart f drawn).2) {fuel : Nat} (hf : T ≤ fuel) :
    ∃ (res : Evolved L A Particle (Option (List Rat))) (P : Nat → L → Particle) (G : Nat → List Rat), evolve fuel cfg init r w = .ok res ∧ ShowsOn cfg res T g0.labels P ∧ res.world.user = some (G (T - 1)) ∧
      (∀ e ∈ drawn, P 0 e.1 = ⟨e.2.1, e.2.1, e.2.2⟩) ∧
      (∀ t, t < T → ∀ i ∈ g0.labels, BestSoFar f (fun s => (P s i).x) t (P t i).p) ∧
      (∀ t, t < T → (∃ i ∈ g0.labels, ∃ s, s ≤ t ∧ G t = (P s i).x) ∧ ∀ i ∈ g0.labels, ∀ s, s ≤ t → f (G t) ≤ f (P s i).x) ∧
      ∀ t, t + 1 < T → ∀ before i after, g0.labels = before ++ i :: after → ∃ g,
        Moves dim k.inertia k.cognitive k.social (draws (t + 1) i).1 (draws (t + 1) i).2 g (P t i) (P (t + 1) i) ∧
        (g = G t ∨ ∃ j ∈ before, g = (P (t + 1) j).p) ∧ f g ≤ f (G t) ∧ ∀ j ∈ before, f g ≤ f (P (t + 1) j).p := by
  have hs : cfg.Safe := Or.inr (fun rule hh => by rw [h.topology] at hh; cases hh)
  have hpk : cfg.PackOk := fun hh => by rw [h.compression] at hh; cases hh
  let curOf : Dict L Particle → L → Particle := fun d x => (d.get? x).getD ⟨[], [], []⟩
  have hcurOf : ∀ {d : Dict L Particle} {cur : L → Particle}, ActsAre g0.labels d cur → ∀ x ∈ g0.labels, cur x = curOf d x := by
    intro d cur hd x hx
    show _ = (d.get? x).getD _
    rw [hd.2 x hx]
    rfl
  have hsw : ∀ {cur cur' : L → Particle} {g : List Rat}, SwarmOk f dim g0.labels cur g → (∀ x ∈ g0.labels, cur x = cur' x) → SwarmOk f dim g0.labels cur' g := by
    intro cur cur' g hh he
    refine ⟨fun x hx => by rw [← he x hx]; exact hh.dims x hx, hh.len, ?_, fun x hx => by rw [← he x hx]; exact hh.le x hx⟩
    obtain ⟨x, hx, e⟩ := hh.some
    exact ⟨x, hx, by rw [← he x hx]; exact e⟩
  have hinput : ∀ t d n g, callInput cfg.input t d n (some g) = .ok (if t = T then none else some (.scalar d), some g) := by
    intro t d n g
    rw [h.input]
    rfl
  have hdne : drawn ≠ [] := by
    intro hc
    rw [hc] at hkeys
    exact hne hkeys.symm
  have hget0 : ∀ e ∈ drawn, (initDict cfg init).get? e.1 = some ⟨e.2.1, e.2.1, e.2.2⟩ := by
    intro e he
    rw [hinit]
    refine Dict.get?_of_mem ?_ ?_
    · unfold psoStart Dict.keys
      simp only [List.map_map, Function.comp_def]
      have : drawn.map (fun e => e.1) = g0.labels := hkeys
      rw [this]
      exact hg.nodup
    · unfold psoStart
      exact List.mem_map.2 ⟨e, he, rfl⟩
  have hmem0 : ∀ x ∈ g0.labels, ∃ e ∈ drawn, e.1 = x := by
    intro x hx
    rw [← hkeys] at hx
    obtain ⟨e, he, rfl⟩ := List.mem_map.1 hx
    exact ⟨e, he, rfl⟩
  have hacts0 : ActsAre g0.labels (initDict cfg init) (curOf (initDict cfg init)) := by
    refine ⟨?_, ?_⟩
    · rw [hinit, ← hkeys]
      simp [psoStart]
    · intro x hx
      obtain ⟨e, he, rfl⟩ := hmem0 x hx
      show _ = some (((initDict cfg init).get? e.1).getD _)
      rw [hget0 e he]
      rfl
  have hcur0 : ∀ e ∈ drawn, curOf (initDict cfg init) e.1 = ⟨e.2.1, e.2.1, e.2.2⟩ := by
    intro e he
    show ((initDict cfg init).get? e.1).getD _ = _
    rw [hget0 e he]
    rfl
  obtain ⟨gs0, s1, ⟨e0, s2, s3⟩, s4⟩ := psoStart_le f hdne
  have hswarm0 : SwarmOk f dim g0.labels (curOf (initDict cfg init)) gs0 := by
    refine ⟨?_, ?_, ?_, ?_⟩
    · intro x hx
      obtain ⟨e, he, rfl⟩ := hmem0 x hx
      rw [hcur0 e he]
      exact ⟨(hdim e he).1, (hdim e he).1, (hdim e he).2⟩
    · rw [s3]; exact (hdim e0 s2).1
    · refine ⟨e0.1, by rw [← hkeys]; exact List.mem_map_of_mem s2, ?_⟩
      rw [hcur0 e0 s2]
      exact s3
    · intro x hx
      obtain ⟨e, he, rfl⟩ := hmem0 x hx
      rw [hcur0 e he]
      exact s4 e he
  obtain ⟨res, ds, ns, us, e1, e2, e3, e4, e5, e6, e7, e8⟩ := inv_run hs hpk (n0 := ofMG g0)
    (Inv := fun _ d n u => n = ofMG g0 ∧ ActsAre g0.labels d (curOf d) ∧ ∃ g, u = some g ∧ SwarmOk f dim g0.labels (curOf d) g)
    (Rel := fun t d _ u d' _ u' => ∃ g g', u = some g ∧ u' = some g' ∧ ∀ before x after, g0.labels = before ++ x :: after →
        f (curOf d' x).p ≤ f (curOf d x).p ∧ f (curOf d' x).p ≤ f (curOf d' x).x ∧
        ((curOf d' x).p = (curOf d x).p ∨ (curOf d' x).p = (curOf d' x).x) ∧
        ∃ g1, Moves dim k.inertia k.cognitive k.social (draws (t + 1) x).1 (draws (t + 1) x).2 g1 (curOf d x) (curOf d' x) ∧
          (g1 = g ∨ ∃ y ∈ before, g1 = (curOf d' y).p) ∧ f g1 ≤ f g ∧ ∀ y ∈ before, f g1 ≤ f (curOf d' y).p)
    (T := T) (init := init) (by
      rintro t d n u ht ⟨rfl, i2, g, rfl, i4⟩
      obtain ⟨cur', g', a1, a2, a3, a4⟩ := swarm_step (k := k) hg.nodup (hdr (t + 1)) i4
      refine ⟨.scalar d, some g, _, ofMG g0, _, ?_, stepOk_static h.topology ?_, ⟨rfl, ?_, g', a1, hsw a3 (hcurOf a2)⟩, g, g', rfl, a1, ?_⟩
      · rw [hinput, if_neg (by omega)]
      · intro ks past memo
        have := computeActs_seq (t := t + 1) (inp := .scalar d) (prev := d) (n := ofMG g0) (past := past) (nmap := keptMap cfg (ofMG g0)) h.rule
          h.perturbation h.memoize ks (by rw [labels_ofMG]; exact hg.nodup)
          (step := psoStep f k (draws (t + 1)) (curOf d)) (Ok := fun u => u ≠ none) (by
          intro x hx u hu
          rw [labels_ofMG] at hx
          obtain ⟨g1, rfl⟩ := Option.ne_none_iff_exists'.1 hu
          refine ⟨by simp [psoStep], _, mkCtx_ofMG hg hrot i2.2 (t + 1) past (Or.inr (by simp [keptMap, h.topology])) hx
            (show SpecInput cfg.labelIdx (.scalar d) x (some d) from rfl), ?_⟩
          simp only [psoRule, psoStep, moved, movedBest, Option.getD_some]
          by_cases c1 : f (vadd (curOf d x).x (psoVelocity k (draws (t + 1) x).1 (draws (t + 1) x).2 (curOf d x) g1)) < f (curOf d x).p
          · simp only [c1, if_true, true_and]
            by_cases c2 : f (vadd (curOf d x).x (psoVelocity k (draws (t + 1) x).1 (draws (t + 1) x).2 (curOf d x) g1)) < f g1
            · simp only [c2, if_true]
            · simp only [c2, if_false]
          · simp only [c1, if_false, false_and]) memo (u := some g) (by simp)
        rw [this, labels_ofMG]
      · exact ⟨a2.1, fun x hx => by rw [← hcurOf a2 x hx]; exact a2.2 x hx⟩
      · intro before x after hl
        have hx : x ∈ g0.labels := by rw [hl]; simp
        have := a4 before x after hl
        rw [hcurOf a2 x hx] at this
        obtain ⟨b1, b2, b3, g1, b4, b5, b6, b7⟩ := this
        refine ⟨b1, b2, b3, g1, b4, ?_, b6, ?_⟩
        · rcases b5 with b5 | ⟨y, hy, b5⟩
          · exact Or.inl b5
          · exact Or.inr ⟨y, hy, by rw [b5, hcurOf a2 y (by rw [hl]; simp [hy])]⟩
        · intro y hy
          rw [← hcurOf a2 y (by rw [hl]; simp [hy])]
          exact b7 y hy)
    (by
      rintro d n u ⟨_, _, g, rfl, _⟩
      exact ⟨some g, by rw [hinput, if_pos rfl]⟩)
    hT (by rw [h.input]; intro hc; cases hc) (by rw [hacts0.1]; simp [Net.size, ofMG, MG.labels]) hr
    ⟨rfl, hacts0, gs0, by rw [hu, s1], hswarm0⟩ hf
  obtain ⟨p1, p2⟩ := shows_hist h.persist h.compression e5
  have hbest : ∀ t, t < T → ∀ i ∈ g0.labels, BestSoFar f (fun s => (curOf (ds s) i).x) t (curOf (ds t) i).p := by
    intro t ht i hi
    refine best_of_steps (P := fun s => curOf (ds s) i) (T := T) ?_ ?_ t ht
    · obtain ⟨e, he, rfl⟩ := hmem0 i hi
      simp only [e2, hcur0 e he]
    · intro s hs'
      obtain ⟨g, g', _, _, hh⟩ := e7 s hs'
      obtain ⟨b, a, hl⟩ := List.append_of_mem hi
      obtain ⟨b1, b2, b3, _⟩ := hh b i a hl
      exact ⟨b1, b2, b3⟩
  refine ⟨res, fun t i => curOf (ds t) i, fun t => (us t).getD [], e1, ⟨p1, ?_⟩, ?_, ?_, hbest, ?_, ?_⟩
  · intro t ht
    obtain ⟨_, i2, _⟩ := e6 t ht
    refine ⟨ds t, p2 t ht ?_, i2.1, i2.2⟩
    intro hc
    have := i2.1
    rw [hc] at this
    exact hne (List.length_eq_zero_iff.1 this.symm)
  · obtain ⟨_, _, g, hg', _⟩ := e6 (T - 1) (by omega)
    rw [hg', hinput, if_pos rfl] at e8
    simp only [Except.ok.injEq, Prod.mk.injEq, true_and] at e8
    simp only [← e8, hg', Option.getD_some]
  · intro e he
    simp only [e2]
    exact hcur0 e he
  · intro t ht
    obtain ⟨_, _, g, hg', hsk⟩ := e6 t ht
    simp only [hg', Option.getD_some]
    refine ⟨?_, ?_⟩
    · obtain ⟨i, hi, hgi⟩ := hsk.some
      obtain ⟨⟨s, hs1, hs2⟩, _⟩ := hbest t ht i hi
      exact ⟨i, hi, s, hs1, by rw [hgi, hs2]⟩
    · intro i hi s hs'
      exact Rat.le_trans (hsk.le i hi) ((hbest t ht i hi).2 s hs')
  · intro t ht before i after hl
    obtain ⟨g, g', hg1, hg2, hh⟩ := e7 t ht
    obtain ⟨_, _, _, g1, b4, b5, b6, b7⟩ := hh before i after hl
    refine ⟨g1, b4, ?_, ?_, b7⟩
    · simp only [hg1, Option.getD_some]
      exact b5
    · simp only [hg1, Option.getD_some]
      exact b6

variable {σ : Type}

/-- The call of the local version (one network) or of the dynamic one (the networks `nets t`, drawn by the topology rule). -/
structure LocalSwarmCall (cfg : Config L A Particle (Dict L Particle) σ κ) (f : List Rat → Rat) (k : Coeffs)
    (draws : Nat → L → List Rat × List Rat) (nets : Nat → MG L A) (T : Nat) : Prop where
  rule : cfg.PureRule (psoLocalRule f k draws)
  perturbation : cfg.perturbation = none
  topology : (cfg.topology = none ∧ ∀ t, nets t = nets 0) ∨ (cfg.topology = some (psoTopology (fun t => ofMG (nets t))) ∧
    cfg.order = .activitiesFirst ∧ (∀ x, cfg.labelCodec.ExactAt x) ∧ ∀ x, cfg.attrCodec.ExactAt x)
  input : cfg.input = .fn (psoLocalInput f T)
  memoize : cfg.memoize = false
  persist : cfg.persistActs = true
  compression : cfg.compression = false

omit [DecidableEq L] [DecidableEq κ] in
theorem psoLocal_input {cfg : Config L A Particle (Dict L Particle) σ κ} {f : List Rat → Rat} {T : Nat} (h : cfg.input = .fn (psoLocalInput f T))
    {t : Nat} {d : Dict L Particle} (hd : d ≠ []) {n : Net L A} {u : σ} :
    callInput cfg.input t d n u = .ok (if t = T then none else some (.scalar d), u) := by
  rw [h]
  obtain ⟨g, hg, _⟩ := bestSolution_spec f (l := d.map Prod.snd) (by simpa using hd)
  simp only [callInput, psoLocalInput, hg]

/-- C108.  The local and dynamic particle swarms: every node has neighbours in every network.  Every particle's `p` is a best position it has visited, and it
moves by the formula with its own best position and a best one of the positions `p` of its neighbours in the network of the state. -/
theorem C108_local {cfg : Config L A Particle (Dict L Particle) σ κ} {f : List Rat → Rat} {k : Coeffs} {draws : Nat → L → List Rat × List Rat}
    {nets : Nat → MG L A} {T : Nat} (h : LocalSwarmCall cfg f k draws nets T) (hT : 1 ≤ T) {ls : List L} (hne : ls ≠ [])
    (hnets : ∀ t, (nets t).Valid ∧ (nets t).rot = none ∧ (nets t).labels = ls ∧ ∀ x ∈ ls, sources (nets t).edges x ≠ []) {dim : Nat}
    (hdr : ∀ t, ∀ x ∈ ls, (draws t x).1.length = dim ∧ (draws t x).2.length = dim) {init : Option (Conds L Particle)} {x0 v0 : L → List Rat}
    (hlen : (initDict cfg init).length = ls.length) (h0 : ∀ x ∈ ls, (initDict cfg init).get? x = some ⟨x0 x, x0 x, v0 x⟩)
    (hdim : ∀ x ∈ ls, (x0 x).length = dim ∧ (v0 x).length = dim) {r : Nat} {w : World L A σ} (hr : w.heap[r]? = some (ofMG (nets 0)))
    {fuel : Nat} (hf : T ≤ fuel) :
    ∃ (res : Evolved L A Particle σ) (P : Nat → L → Particle), evolve fuel cfg init r w = .ok res ∧ ShowsOn cfg res T ls P ∧
      (∀ t, t < T → ∀ i ∈ ls, BestSoFar f (fun s => (P s i).x) t (P t i).p) ∧
      ∀ t, t + 1 < T → ∀ i ∈ ls, ∃ g, (∃ j ∈ sources (nets t).edges i, g = (P t j).p) ∧ (∀ j ∈ sources (nets t).edges i, f g ≤ f (P t j).p) ∧
        Moves dim k.inertia k.cognitive k.social (draws (t + 1) i).1 (draws (t + 1) i).2 g (P t i) (P (t + 1) i) := by
  have hs : cfg.Safe := by
    right
    intro rule hh ctx u o u' hru
    rcases h.topology with ⟨ht, _⟩ | ⟨ht, _⟩
    · rw [ht] at hh; cases hh
    · rw [ht] at hh
      cases hh
      simp only [psoTopology, Except.ok.injEq, Prod.mk.injEq] at hru
      rw [← hru.1]
  have hpk : cfg.PackOk := fun hh => by rw [h.compression] at hh; cases hh
  let curOf : Dict L Particle → L → Particle := fun d x => (d.get? x).getD ⟨[], [], []⟩
  have hacts0 : ActsAre ls (initDict cfg init) (curOf (initDict cfg init)) := by
    refine ⟨hlen, ?_⟩
    intro x hx
    show _ = some (((initDict cfg init).get? x).getD _)
    rw [h0 x hx]
    rfl
  have hcur0 : ∀ x ∈ ls, curOf (initDict cfg init) x = ⟨x0 x, x0 x, v0 x⟩ := by
    intro x hx
    show ((initDict cfg init).get? x).getD _ = _
    rw [h0 x hx]
    rfl
  have hnd : ls.Nodup := by
    have := (hnets 0).1.nodup
    rwa [(hnets 0).2.2.1] at this
  have hne' : ∀ {d : Dict L Particle} {cur : L → Particle}, ActsAre ls d cur → d ≠ [] := by
    intro d cur hd hc
    have := hd.1
    rw [hc] at this
    exact hne (List.length_eq_zero_iff.1 this.symm)
  obtain ⟨res, ds, ns, us, e1, e2, e3, e4, e5, e6, e7, e8⟩ := inv_run hs hpk (n0 := ofMG (nets 0))
    (Inv := fun t d n _ => n = ofMG (nets t) ∧ ActsAre ls d (curOf d) ∧ ∀ x ∈ ls, Particle.Dim dim (curOf d x))
    (Rel := fun t d _ _ d' _ _ => ∀ x ∈ ls, f (curOf d' x).p ≤ f (curOf d x).p ∧ f (curOf d' x).p ≤ f (curOf d' x).x ∧
        ((curOf d' x).p = (curOf d x).p ∨ (curOf d' x).p = (curOf d' x).x) ∧
        ∃ g, (∃ j ∈ sources (nets t).edges x, g = (curOf d j).p) ∧ (∀ j ∈ sources (nets t).edges x, f g ≤ f (curOf d j).p) ∧
          Moves dim k.inertia k.cognitive k.social (draws (t + 1) x).1 (draws (t + 1) x).2 g (curOf d x) (curOf d' x))
    (T := T) (init := init) (by
      rintro t d n u ht ⟨rfl, i2, i3⟩
      obtain ⟨n1, n2, n3, n4⟩ := hnets t
      have hbest : ∀ x ∈ ls, ∃ g, bestSolution f ((sources (nets t).edges x).map (curOf d)) = some g ∧ (∃ j ∈ sources (nets t).edges x, g = (curOf d j).p) ∧
          ∀ j ∈ sources (nets t).edges x, f g ≤ f (curOf d j).p := by
        intro x hx
        obtain ⟨g, a1, ⟨a, a2, a3⟩, a4⟩ := bestSolution_spec f (l := (sources (nets t).edges x).map (curOf d)) (by simpa using n4 x hx)
        obtain ⟨j, hj, rfl⟩ := List.mem_map.1 a2
        exact ⟨g, a1, ⟨j, hj, a3⟩, fun j hj => a4 _ (List.mem_map_of_mem hj)⟩
      let val : L → Particle := fun x => moved f k (draws (t + 1) x) (curOf d x) ((bestSolution f ((sources (nets t).edges x).map (curOf d))).getD [])
      have hcomp : ∀ ks past memo nm, (nm = none ∨ nm = some (neighbourhoodMap (ofMG (nets t)))) →
          computeActs cfg ks (t + 1) (.scalar d) d (ofMG (nets t)) past nm memo u = .ok ⟨(seqRun (fun x u => (val x, u)) ls u).1, [], [], memo, u⟩ := by
        intro ks past memo nm hnm
        have := computeActs_seq (t := t + 1) (inp := .scalar d) (prev := d) (n := ofMG (nets t)) (past := past) (nmap := nm) h.rule
          h.perturbation h.memoize ks (by rw [labels_ofMG]; exact n1.nodup)
          (step := fun x (u : σ) => (val x, u)) (Ok := fun _ => True) (by
          intro x hx u _
          rw [labels_ofMG] at hx
          refine ⟨trivial, _, mkCtx_ofMG n1 n2 (by rw [n3]; exact i2.2) (t + 1) past hnm hx
            (show SpecInput cfg.labelIdx (.scalar d) x (some d) from rfl), ?_⟩
          rw [n3] at hx
          obtain ⟨g, a1, _⟩ := hbest x hx
          simp only [pureRule, psoLocalRule, a1, val, Option.getD_some, moved]
          by_cases c1 : f (vadd (curOf d x).x (psoVelocity k (draws (t + 1) x).1 (draws (t + 1) x).2 (curOf d x) g)) < f (curOf d x).p
          · simp only [c1, if_true]
          · simp only [c1, if_false]) memo (u := u) trivial
        rw [this, labels_ofMG, n3]
        have hu : ∀ (l : List L) (u : σ), (seqRun (fun x u => (val x, u)) l u).2 = u := by
          intro l
          induction l with
          | nil => intro u; rfl
          | cons x l ih => intro u; exact ih u
        rw [hu]
      have hget : ∀ x ∈ ls, (seqRun (fun x u => (val x, u)) ls u).1.get? x = some (val x) := by
        intro x hx
        obtain ⟨b, a, hl⟩ := List.append_of_mem hx
        exact get?_seqRun _ hl hnd _
      have hcv : ∀ x ∈ ls, curOf (seqRun (fun x u => (val x, u)) ls u).1 x = val x := by
        intro x hx
        show (((seqRun (fun x u => (val x, u)) ls u).1).get? x).getD _ = _
        rw [hget x hx]
        rfl
      have hmv : ∀ x ∈ ls, ∃ g, (∃ j ∈ sources (nets t).edges x, g = (curOf d j).p) ∧ (∀ j ∈ sources (nets t).edges x, f g ≤ f (curOf d j).p) ∧
          val x = moved f k (draws (t + 1) x) (curOf d x) g ∧
          Moves dim k.inertia k.cognitive k.social (draws (t + 1) x).1 (draws (t + 1) x).2 g (curOf d x) (moved f k (draws (t + 1) x) (curOf d x) g) := by
        intro x hx
        obtain ⟨g, a1, ⟨j, hj, a2⟩, a3⟩ := hbest x hx
        refine ⟨g, ⟨j, hj, a2⟩, a3, by simp only [val, a1, Option.getD_some], moves_moved (i3 x hx) ?_ (hdr _ x hx).1 (hdr _ x hx).2⟩
        rw [a2]
        exact (i3 j (by have := (mem_labels_of_mem_sources n1 hj).1; rwa [n3] at this)).2.1
      refine ⟨.scalar d, u, (seqRun (fun x u => (val x, u)) ls u).1, ofMG (nets (t + 1)), u, ?_, ?_, ⟨rfl, ⟨?_, ?_⟩, ?_⟩, ?_⟩
      · rw [psoLocal_input h.input (hne' i2), if_neg (by omega)]
      · rcases h.topology with ⟨ht', hc⟩ | ⟨ht', ho, hl, ha⟩
        · rw [hc (t + 1), ← hc t]
          refine stepOk_static ht' (fun ks past memo => hcomp ks past memo _ (Or.inr ?_))
          simp only [keptMap, ht', Option.isSome_none, Bool.false_eq_true, if_false]
        · intro ks past memo
          refine ⟨u, ?_⟩
          simp only [ho]
          refine ⟨hcomp ks past memo _ (Or.inl (by simp [keptMap, ht'])), ?_⟩
          have hnon : (ofMG (nets (t + 1))).nodes.isEmpty = false := ofMG_nonempty (by rw [(hnets (t + 1)).2.2.1]; exact hne)
          have hrv : ∀ n, ruleV (psoTopology (σ := σ) (fun t => ofMG (nets t))) (t + 1) (seqRun (fun x u => (val x, u)) ls u).1 n u = .ok (ofMG (nets (t + 1)), u) := by
            intro n
            unfold ruleV
            simp only [psoTopology, TopOut.value, hnon, Bool.false_eq_true, if_false]
          unfold topoV reqsV
          simp only [List.isEmpty_nil, Bool.and_self, if_true, ht']
          rw [copy_ofMG n1 (fun y _ => hl y) (fun e _ kv _ => ha kv.2) (fun p _ kv _ => ha kv.2)]
          simp only [hrv]
          split <;> rfl
      · have := congrArg List.length (keys_seqRun (fun x u => (val x, u)) ls u)
        simpa [Dict.keys] using this
      · intro x hx
        rw [hcv x hx]
        exact hget x hx
      · intro x hx
        rw [hcv x hx]
        obtain ⟨g, _, _, a3, a4⟩ := hmv x hx
        rw [a3]
        exact a4.dims
      · intro x hx
        rw [hcv x hx]
        obtain ⟨g, a1, a2, a3, a4⟩ := hmv x hx
        rw [a3]
        refine ⟨moved_le.1, moved_le.2, ?_, g, a1, a2, a4⟩
        rcases moved_p (f := f) (k := k) (r := draws (t + 1) x) (a := curOf d x) (g := g) with ⟨h1, _⟩ | ⟨h1, _⟩
        · exact Or.inl h1
        · exact Or.inr h1)
    (by
      rintro d n u ⟨_, i2, _⟩
      exact ⟨u, by rw [psoLocal_input h.input (hne' i2), if_pos rfl]⟩)
    hT (by rw [h.input]; intro hc; cases hc) (by rw [hlen, ← (hnets 0).2.2.1]; simp [Net.size, ofMG, MG.labels]) hr
    ⟨rfl, hacts0, by
      intro x hx
      rw [hcur0 x hx]
      exact ⟨(hdim x hx).1, (hdim x hx).1, (hdim x hx).2⟩⟩ hf
  obtain ⟨p1, p2⟩ := shows_hist h.persist h.compression e5
  refine ⟨res, fun t i => curOf (ds t) i, e1, ⟨p1, ?_⟩, ?_, ?_⟩
  · intro t ht
    obtain ⟨_, i2, _⟩ := e6 t ht
    exact ⟨ds t, p2 t ht (hne' i2), i2.1, i2.2⟩
  · intro t ht i hi
    refine best_of_steps (P := fun s => curOf (ds s) i) (T := T) ?_ ?_ t ht
    · simp only [e2, hcur0 i hi]
    · intro s hs'
      obtain ⟨b1, b2, b3, _⟩ := e7 s hs' i hi
      exact ⟨b1, b2, b3⟩
  · intro t ht i hi
    obtain ⟨_, _, _, hh⟩ := e7 t ht i hi
    exact hh

theorem first_of {α : Type} {p : α → Prop} [DecidablePred p] : ∀ {l : List α}, (∃ x ∈ l, p x) → ∃ done x rest, l = done ++ x :: rest ∧ p x ∧ ∀ y ∈ done, ¬ p y
  | [], h => by obtain ⟨x, hx, _⟩ := h; simp at hx
  | a :: l, h => by
    by_cases ha : p a
    · exact ⟨[], a, l, rfl, ha, by simp⟩
    · obtain ⟨x, hx, hp⟩ := h
      rcases List.mem_cons.1 hx with rfl | hx
      · exact absurd hp ha
      · obtain ⟨d, y, r, h1, h2, h3⟩ := first_of ⟨x, hx, hp⟩
        refine ⟨a :: d, y, r, by rw [h1]; rfl, h2, ?_⟩
        intro z hz
        rcases List.mem_cons.1 hz with rfl | hz
        · exact ha
        · exact h3 z hz

/-- C108.  In the local version a node without neighbours makes the call raise (`None - x_i`). -/
theorem C108_isolated {cfg : Config L A Particle (Dict L Particle) σ κ} {f : List Rat → Rat} {k : Coeffs} {draws : Nat → L → List Rat × List Rat}
    {g0 : MG L A} {T : Nat} (h : LocalSwarmCall cfg f k draws (fun _ => g0) T) (htop : cfg.topology = none) (hT : 2 ≤ T) (hg : g0.Valid) (hrot : g0.rot = none)
    (hiso : ∃ x ∈ g0.labels, sources g0.edges x = []) {init : Option (Conds L Particle)} {a0 : L → Particle}
    (hlen : (initDict cfg init).length = g0.labels.length) (h0 : ∀ x ∈ g0.labels, (initDict cfg init).get? x = some (a0 x))
    {r : Nat} {w : World L A σ} (hr : w.heap[r]? = some (ofMG g0)) {fuel : Nat} (hf : 1 ≤ fuel) :
    evolve fuel cfg init r w = .error .typeError := by
  have hpk : cfg.PackOk := fun hh => by rw [h.compression] at hh; cases hh
  obtain ⟨done, x, rest, e1, e2, e3⟩ := first_of (p := fun x => sources g0.edges x = []) hiso
  have hl : (ofMG g0).labels = g0.labels := labels_ofMG g0
  refine evolve_fail (T := 1) (n := ofMG g0) (nb := sources g0.edges) (f := fun _ => a0) h.rule h.perturbation htop hpk (by rw [hl]; exact hg.nodup) ?_
    (by rw [hlen]; simp [Net.size, ofMG, MG.labels]) (by rw [hl]; exact h0) (inp := fun _ => .scalar (initDict cfg init)) (nin := fun _ _ => some (initDict cfg init))
    (Pre := fun _ _ _ => True) (Mid := fun _ _ _ _ => True) ⟨fun t _ _ ht => by omega, fun t _ ht => by omega, fun t _ _ _ _ _ ht => by omega, fun t _ _ ht => by omega⟩
    (Nat.le_refl _) (by rw [h.input]; intro hc; cases hc) hr trivial ?_ (fun _ _ => rfl) (done := done) (x := x) (rest := rest) (by rw [hl]; exact e1) ?_ ?_ hf
  · intro y hy
    rw [hl] at hy
    refine ⟨?_, ?_⟩
    · unfold specNbrs
      have : (ofMG g0).rotation = none := hrot
      rw [this]
      simp only
      obtain ⟨a, _, h2⟩ := get?_ofMG_of_mem hy
      rw [h2]
      simp only [Option.map_some, nodeOf, keys_incomingOf]
    · intro z hz
      rw [hl]
      exact (mem_labels_of_mem_sources hg hz).1
  · intro m u _
    refine ⟨u, ?_, trivial⟩
    rw [psoLocal_input h.input, if_neg (by omega)]
    · simp [plainActs]
    · simp only [plainActs, if_true]
      intro hc
      rw [hc] at hlen
      rw [e1] at hlen
      simp at hlen
  · intro d1 y d2 m u hd _
    have hy : y ∈ done := by rw [hd]; simp
    obtain ⟨g, a1, _⟩ := bestSolution_spec f (l := (sources g0.edges y).map a0) (by simpa using e3 y hy)
    simp only [applyRule, h.memoize, Bool.false_eq_true, if_false, pureRule, psoLocalRule, runCtx, a1]
    by_cases c1 : f (vadd (a0 y).x (psoVelocity k (draws (1 - 1 + 1) y).1 (draws (1 - 1 + 1) y).2 (a0 y) g)) < f (a0 y).p
    · simp only [c1, if_true]
      exact ⟨_, _, _, rfl, trivial⟩
    · simp only [c1, if_false]
      exact ⟨_, _, _, rfl, trivial⟩
  · intro m u _
    simp only [applyRule, h.memoize, Bool.false_eq_true, if_false, pureRule, psoLocalRule, runCtx, e2, List.map_nil, bestSolution, List.foldl_nil]

end

/-- C108, the sphere function: the sum of the squares, so it is least exactly at the origin. -/
theorem C108_sphere : sphere [] = 0 ∧ (∀ c x, sphere (c :: x) = c * c + sphere x) ∧
    ∀ x, 0 ≤ sphere x ∧ (sphere x = 0 ↔ ∀ c ∈ x, c = 0) := by
  have hcons : ∀ c x, sphere (c :: x) = c * c + sphere x := by
    intro c x
    simp only [sphere, List.map_cons, List.sum_cons]
    grind
  refine ⟨rfl, hcons, ?_⟩
  intro x
  induction x with
  | nil => exact ⟨by decide, by simp [sphere]⟩
  | cons c x ih =>
    obtain ⟨h1, h2⟩ := ih
    have hc : 0 ≤ c * c := by have := rat_sq_nonneg c; grind
    rw [hcons]
    refine ⟨by grind, ?_⟩
    constructor
    · intro h
      have hc0 : c * c = 0 := by grind
      have hx0 : sphere x = 0 := by grind
      have : c = 0 := by rcases Rat.mul_eq_zero.1 hc0 with h | h <;> exact h
      intro y hy
      rcases List.mem_cons.1 hy with rfl | hy
      · exact this
      · exact h2.1 hx0 y hy
    · intro h
      rw [h2.2 (fun y hy => h y (by simp [hy])), h c (by simp)]
      decide +kernel

theorem camel_sos (x y : Rat) : camel [x, y] + 6 / 5 = (1 / 3) * (x * (x * x - 63 / 20)) * (x * (x * x - 63 / 20)) +
    (277 / 400) * (x + (200 / 277) * y) * (x + (200 / 277) * y) + 4 * (y * y - 546 / 1000) * (y * y - 546 / 1000) +
    (4 * 2 * (546 / 1000) - 4 - (100 / 277)) * (y * y) + (6 / 5 - 4 * (546 / 1000) * (546 / 1000)) := by
  unfold camel
  grind

/-- C108, the camel function: it is symmetric, never below `-6/5`, and below `-103/100` near its minimum. -/
theorem C108_camel : (∀ x y, camel [-x, -y] = camel [x, y]) ∧ (∀ x y, -6 / 5 ≤ camel [x, y]) ∧ camel [9 / 100, -71 / 100] < -103 / 100 ∧
    camel [-9 / 100, 71 / 100] < -103 / 100 := by
  refine ⟨?_, ?_, by decide +kernel, by decide +kernel⟩
  · intro x y
    unfold camel
    grind
  · intro x y
    have h := camel_sos x y
    generalize camel [x, y] = v at h ⊢
    have h1 := rat_sq_nonneg (x * (x * x - 63 / 20))
    have h2 := rat_sq_nonneg (x + (200 / 277) * y)
    have h3 := rat_sq_nonneg (y * y - 546 / 1000)
    have h4 := rat_sq_nonneg y
    generalize (x * (x * x - 63 / 20)) = p at h h1
    generalize (x + (200 / 277) * y) = q at h h2
    generalize (y * y - 546 / 1000) = s at h h3
    grind

namespace Ex

/-- Two particles that see each other. -/
def duo : MG Nat Int := ⟨[(0, []), (1, [])], [⟨0, 1, []⟩, ⟨1, 0, []⟩], none⟩
theorem duo_valid : duo.Valid := ⟨by decide, by decide⟩

def swarmCall {σ : Type} (rule : NodeCtx Nat Int Particle (Dict Nat Particle) → σ → Except Err (RuleOut Nat Int Particle × σ))
    (input : InputSrc Nat Int Particle (Dict Nat Particle) σ) : Config Nat Int Particle (Dict Nat Particle) σ Unit :=
  { rule := some rule, input := input, topology := none, perturbation := none, past := [], order := .activitiesFirst, copyNetwork := true,
    compression := false, persistActs := true, persistNet := true, memoize := false, key := none, natLabel := id,
    labelIdx := fun x => some (x : Int), actAttr := fun _ => 0, labelCodec := ⟨fun _ => .ok (), id⟩, attrCodec := ⟨fun _ => .ok (), id⟩,
    valCodec := ⟨fun _ => .ok (), id⟩ }

/-- Two particles at `(2)` and `(1)`, with the sphere function. -/
example : ∃ (res : Evolved Nat Int Particle (Option (List Rat))) (P : Nat → Nat → Particle) (G : Nat → List Rat),
    evolve 3 (swarmCall (psoRule sphere ⟨1 / 2, 1, 1⟩ (fun _ _ => ([1 / 2], [1 / 2]))) (.fn (psoInput 3)))
      (some (.dict (psoStart sphere [(0, [2], [0]), (1, [1], [-1])]).1)) 0 ⟨[ofMG duo], (psoStart sphere [(0, [2], [0]), (1, [1], [-1])]).2⟩ = .ok res ∧
    ShowsOn (swarmCall (psoRule sphere ⟨1 / 2, 1, 1⟩ (fun _ _ => ([1 / 2], [1 / 2]))) (.fn (psoInput 3))) res 3 [0, 1] P ∧ res.world.user = some (G 2) := by
  obtain ⟨res, P, G, e1, e2, e3, _⟩ := C108_global (T := 3) (f := sphere) (k := ⟨1 / 2, 1, 1⟩) (draws := fun _ _ => ([1 / 2], [1 / 2]))
    (cfg := swarmCall (psoRule sphere ⟨1 / 2, 1, 1⟩ (fun _ _ => ([1 / 2], [1 / 2]))) (.fn (psoInput 3)))
    ⟨rfl, rfl, rfl, rfl, rfl, rfl, rfl⟩ (by omega) duo_valid rfl (by decide) (dim := 1) (by intros; exact ⟨rfl, rfl⟩)
    (drawn := [(0, [2], [0]), (1, [1], [-1])]) rfl (by decide) (init := some (.dict (psoStart sphere [(0, [2], [0]), (1, [1], [-1])]).1)) rfl
    (r := 0) (w := ⟨[ofMG duo], (psoStart sphere [(0, [2], [0]), (1, [1], [-1])]).2⟩) rfl rfl (fuel := 3) (by omega)
  exact ⟨res, P, G, e1, e2, e3⟩

/-- The same particles with the local rule. -/
example : ∃ (res : Evolved Nat Int Particle Unit) (P : Nat → Nat → Particle),
    evolve 3 (swarmCall (pureRule (psoLocalRule sphere ⟨1 / 2, 1, 1⟩ (fun _ _ => ([1 / 2], [1 / 2])))) (.fn (psoLocalInput sphere 3)))
      (some (.list [⟨[2], [2], [0]⟩, ⟨[1], [1], [-1]⟩])) 0 ⟨[ofMG duo], ()⟩ = .ok res ∧
    ShowsOn (swarmCall (pureRule (psoLocalRule sphere ⟨1 / 2, 1, 1⟩ (fun _ _ => ([1 / 2], [1 / 2])))) (.fn (psoLocalInput sphere 3))) res 3 [0, 1] P := by
  obtain ⟨res, P, e1, e2, _⟩ := C108_local (T := 3) (f := sphere) (k := ⟨1 / 2, 1, 1⟩) (draws := fun _ _ => ([1 / 2], [1 / 2])) (nets := fun _ => duo)
    (cfg := swarmCall (pureRule (psoLocalRule sphere ⟨1 / 2, 1, 1⟩ (fun _ _ => ([1 / 2], [1 / 2])))) (.fn (psoLocalInput sphere 3)))
    ⟨rfl, rfl, Or.inl ⟨rfl, fun _ => rfl⟩, rfl, rfl, rfl, rfl⟩ (by omega) (ls := [0, 1]) (by decide) (fun _ => ⟨duo_valid, rfl, rfl, by decide⟩) (dim := 1)
    (by intros; exact ⟨rfl, rfl⟩) (init := some (.list [⟨[2], [2], [0]⟩, ⟨[1], [1], [-1]⟩])) (x0 := fun i => if i = 0 then [2] else [1])
    (v0 := fun i => if i = 0 then [0] else [-1]) rfl (by decide) (by decide) (r := 0) (w := ⟨[ofMG duo], ()⟩) rfl (fuel := 3) (by omega)
  exact ⟨res, P, e1, e2⟩

/-- A node without neighbours. -/
example : evolve 3 (swarmCall (pureRule (psoLocalRule sphere ⟨1 / 2, 1, 1⟩ (fun _ _ => ([1 / 2], [1 / 2])))) (.fn (psoLocalInput sphere 3)))
      (some (.list [⟨[2], [2], [0]⟩, ⟨[1], [1], [-1]⟩])) 0 ⟨[ofMG ⟨[(0, []), (1, [])], [⟨1, 0, []⟩], none⟩], ()⟩ = .error .typeError :=
  C108_isolated (T := 3) (cfg := swarmCall (pureRule (psoLocalRule sphere ⟨1 / 2, 1, 1⟩ (fun _ _ => ([1 / 2], [1 / 2])))) (.fn (psoLocalInput sphere 3))) (f := sphere) (k := ⟨1 / 2, 1, 1⟩) (draws := fun _ _ => ([1 / 2], [1 / 2])) (g0 := ⟨[(0, []), (1, [])], [⟨1, 0, []⟩], none⟩)
    ⟨rfl, rfl, Or.inl ⟨rfl, fun _ => rfl⟩, rfl, rfl, rfl, rfl⟩ rfl (by omega) ⟨by decide, by decide⟩ rfl (by decide)
    (a0 := fun i => if i = 0 then ⟨[2], [2], [0]⟩ else ⟨[1], [1], [-1]⟩) rfl (by decide) rfl (by omega)

example : Moves 1 (1 / 2) 1 1 [1 / 2] [1 / 2] [1] ⟨[2], [2], [0]⟩ ⟨[3 / 2], [3 / 2], [-1 / 2]⟩ :=
  ⟨⟨rfl, rfl, rfl⟩, by decide +kernel, by decide +kernel⟩

end Ex
end Verif
