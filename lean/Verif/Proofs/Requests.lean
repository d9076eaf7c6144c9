import Verif.Spec.Requests
import Verif.Proofs.NetworkX
import Verif.Proofs.Copy
import Verif.Proofs.EvolutionLog
/-! # Lemmas on node additions and removals -/

namespace Verif
open MG
section
variable {L A V I σ κ : Type} [DecidableEq L]

theorem dedup_dedup_append (l m : List L) : dedup (dedup l ++ m) = dedup (l ++ m) := by
  induction m generalizing l with
  | nil => simp [dedup_of_nodup (nodup_dedup l)]
  | cons a m ih =>
    have e : ∀ k : List L, k ++ a :: m = (k ++ [a]) ++ m := by simp
    rw [e, e, ← ih (dedup l ++ [a]), ← ih (l ++ [a]), dedup_append_singleton, dedup_append_singleton,
      dedup_of_nodup (nodup_dedup l)]
    simp only [mem_dedup]

theorem parallel_ofMG {g : MG L A} (hg : g.Valid) (i j : L) : parallel (ofMG g) i j = between g.edges i j := by
  unfold parallel
  rw [edge_ofMG hg]
  by_cases h : between g.edges i j = [] <;> simp [h]

theorem attrsOf_ofMG (g : MG L A) (x : L) : attrsOf (ofMG g) x = Dict.get? g.nodes x := by
  unfold attrsOf
  rw [get?_ofMG]
  cases Dict.get? g.nodes x <;> rfl

theorem labels_ensure {g : MG L A} (hg : g.Valid) (x : L) : (ensure g x).labels = dedup (g.labels ++ [x]) := by
  rw [dedup_append_singleton, dedup_of_nodup hg.nodup]
  unfold ensure
  split <;> simp [MG.labels]

theorem labels_addNode {g : MG L A} (hg : g.Valid) (x : L) (attr : Attr A) :
    (MG.addNode g x attr).labels = dedup (g.labels ++ [x]) := by
  rw [← labels_ensure hg]
  simp only [MG.addNode, MG.labels, List.map_map]
  apply List.map_congr_left
  intro p _; simp only [Function.comp]; split <;> rfl

theorem labels_addEdge {g : MG L A} (hg : g.Valid) (i j : L) (attr : Attr A) :
    (MG.addEdge g i j attr).labels = dedup (g.labels ++ [i, j]) := by
  have : (MG.addEdge g i j attr).labels = (ensure (ensure g i) j).labels := rfl
  rw [this, labels_ensure (valid_ensure hg i), labels_ensure hg, dedup_dedup_append]
  simp

theorem get?_ensure (g : MG L A) (x y : L) (hy : y ∈ (ensure g x).labels) :
    Dict.get? (ensure g x).nodes y = some ((Dict.get? g.nodes y).getD []) := by
  have hk : ∀ z, z ∈ g.labels ↔ z ∈ Dict.keys g.nodes := fun _ => Iff.rfl
  unfold ensure at hy ⊢
  by_cases hx : x ∈ g.labels
  · simp only [hx, if_true] at hy ⊢
    obtain ⟨v, hv⟩ := Dict.exists_get?_of_mem_keys ((hk y).1 hy)
    simp [hv]
  · simp only [hx, if_false] at hy ⊢
    rw [Dict.get?_append]
    cases hv : Dict.get? g.nodes y with
    | some v => simp
    | none =>
      have : y = x := by
        simp only [MG.labels, List.map_append, List.mem_append] at hy
        rcases hy with hy | hy
        · exact absurd hy (Dict.get?_eq_none_iff.1 hv)
        · simpa using hy
      subst this
      simp [Dict.get?_cons]

theorem labels_removeNode (g : MG L A) (x : L) :
    (MG.removeNode g x).labels = g.labels.filter (fun y => decide (y ≠ x)) := by
  simp only [MG.removeNode, MG.labels, List.filter_map]; rfl

theorem between_removeNode (g : MG L A) (x i j : L) :
    between (MG.removeNode g x).edges i j = if i = x ∨ j = x then [] else between g.edges i j := by
  simp only [MG.removeNode, between, List.filter_filter]
  by_cases h : i = x ∨ j = x
  · rw [if_pos h]
    simp only [List.map_eq_nil_iff, List.filter_eq_nil_iff, Bool.and_eq_true, decide_eq_true_eq, not_and]
    rintro e - ⟨rfl, rfl⟩ h1
    rcases h with h | h
    · exact absurd h h1
    · exact fun h2 => h2 h
  · rw [if_neg h]
    congr 1
    apply List.filter_congr
    intro e _
    by_cases h1 : e.src = i <;> by_cases h2 : e.dst = j <;> simp_all

theorem get?_filter_key {W : Type} (d : Dict L W) (q : L → Bool) (y : L) :
    Dict.get? (d.filter (fun p => q p.1)) y = if q y then Dict.get? d y else none := by
  induction d with
  | nil => simp
  | cons p d ih =>
    by_cases hq : q p.1 = true
    · rw [List.filter_cons_of_pos (by exact hq), Dict.get?_cons, Dict.get?_cons, ih]
      by_cases hy : p.1 = y
      · subst hy; simp [hq]
      · simp [hy]
    · rw [List.filter_cons_of_neg (by exact hq), Dict.get?_cons, ih]
      by_cases hy : p.1 = y
      · subst hy; simp [hq]
      · simp [hy]

theorem removals_ofMG (removed : List L) {g : MG L A} (hg : g.Valid) {n : Net L A}
    (h : NetM.forEach removed Net.removeNode (ofMG g) = (.ok (), n)) :
    ∃ g', n = ofMG g' ∧ g'.Valid ∧ removed.Nodup ∧ (∀ x ∈ removed, x ∈ g.labels) ∧
      g'.labels = g.labels.filter (fun x => decide (x ∉ removed)) ∧ g'.rot = g.rot ∧
      (∀ i j, between g'.edges i j = if i ∈ removed ∨ j ∈ removed then [] else between g.edges i j) ∧
      (∀ x, Dict.get? g'.nodes x = if x ∈ removed then none else Dict.get? g.nodes x) := by
  induction removed generalizing g with
  | nil =>
    simp only [NetM.forEach, NetM.pure, Prod.mk.injEq, true_and] at h
    exact ⟨g, h.symm, hg, List.nodup_nil, by simp, (List.filter_eq_self.2 (by simp)).symm, rfl, by simp, by simp⟩
  | cons x xs ih =>
    simp only [NetM.forEach, NetM.bind, removeNode_ofMG hg] at h
    by_cases hx : x ∈ g.labels
    · simp only [hx, if_true] at h
      obtain ⟨g', e1, e2, e3, e4, e5, e6, e7, e8⟩ := ih (valid_removeNode hg x) h
      have hmem : ∀ y ∈ xs, y ∈ g.labels ∧ y ≠ x := by
        intro y hy
        have := e4 y hy
        rw [labels_removeNode, List.mem_filter] at this
        simpa using this
      refine ⟨g', e1, e2, List.nodup_cons.2 ⟨fun hxs => (hmem x hxs).2 rfl, e3⟩, ?_, ?_, e6, ?_, ?_⟩
      · intro y hy
        rcases List.mem_cons.1 hy with rfl | hy
        · exact hx
        · exact (hmem y hy).1
      · rw [e5, labels_removeNode, List.filter_filter]
        apply List.filter_congr
        intro y _
        simp [List.mem_cons, not_or, Bool.and_comm]
      · intro i j
        rw [e7, between_removeNode]
        by_cases h1 : i ∈ xs ∨ j ∈ xs
        · rw [if_pos h1, if_pos]; rcases h1 with h1 | h1 <;> simp [h1]
        · rw [if_neg h1]
          by_cases h2 : i = x ∨ j = x
          · rw [if_pos h2, if_pos]; rcases h2 with h2 | h2 <;> simp [h2]
          · rw [if_neg h2, if_neg]; simp only [List.mem_cons]; simp only [not_or] at *; exact ⟨⟨h2.1, h1.1⟩, h2.2, h1.2⟩
      · intro y
        rw [e8]
        have : Dict.get? (MG.removeNode g x).nodes y = if y = x then none else Dict.get? g.nodes y := by
          have := get?_filter_key g.nodes (fun z => decide (z ≠ x)) y
          simp only [MG.removeNode]
          rw [this]
          by_cases hy : y = x <;> simp [hy]
        rw [this]
        by_cases h1 : y ∈ xs <;> by_cases h2 : y = x <;> simp [h1, h2]
    · simp [hx] at h

theorem between_addEdge (g : MG L A) (a b : L) (attr : Attr A) (i j : L) :
    between (MG.addEdge g a b attr).edges i j =
      between g.edges i j ++ (if a = i ∧ b = j then [attr] else []) := by
  simp only [MG.addEdge, between_append, between_singleton]

theorem get?_map_update (d : Dict L (Attr A)) (x : L) (attr : Attr A) (y : L) :
    Dict.get? (d.map (fun p => if p.1 = x then (p.1, Dict.update p.2 attr) else p)) y =
      (Dict.get? d y).map (fun a => if y = x then Dict.update a attr else a) := by
  induction d with
  | nil => simp
  | cons p d ih =>
    rw [List.map_cons, Dict.get?_cons, Dict.get?_cons, ih]
    by_cases h1 : p.1 = x
    · by_cases h2 : p.1 = y
      · have : y = x := by rw [← h2, h1]
        simp [h1, h2, this]
      · have h3 : ¬ x = y := by rw [← h1]; exact h2
        simp [h1, h3]
    · by_cases h2 : p.1 = y
      · have : ¬ y = x := by rw [← h2]; exact h1
        simp [h1, h2, this]
      · simp [h1, h2]

/-- The links of one added node. -/
theorem links_ofMG (x : L) (links : List (L × Attr A)) {g : MG L A} (hg : g.Valid) (hx : x ∈ g.labels) :
    ∃ g', NetM.forEach links (fun p => Net.addEdge x p.1 p.2) (ofMG g) = (.ok (), ofMG g') ∧ g'.Valid ∧
      g'.labels = dedup (g.labels ++ links.map Prod.fst) ∧ g'.rot = g.rot ∧
      (∀ i j, between g'.edges i j = between g.edges i j ++
        (if x = i then (links.filter (fun p => decide (p.1 = j))).map Prod.snd else [])) ∧
      (∀ y ∈ g'.labels, Dict.get? g'.nodes y = some ((Dict.get? g.nodes y).getD [])) := by
  induction links generalizing g with
  | nil =>
    refine ⟨g, rfl, hg, by simp [dedup_of_nodup hg.nodup], rfl, by simp, ?_⟩
    intro y hy
    obtain ⟨v, hv⟩ := Dict.exists_get?_of_mem_keys (d := g.nodes) (k := y) hy
    simp [hv]
  | cons p links ih =>
    have hv := valid_addEdge hg x p.1 p.2
    have hl := labels_addEdge hg x p.1 p.2
    have hl' : (MG.addEdge g x p.1 p.2).labels = dedup (g.labels ++ [p.1]) := by
      have : g.labels ++ [x, p.1] = (g.labels ++ [x]) ++ [p.1] := by simp
      rw [hl, this, ← dedup_dedup_append, dedup_append_singleton g.labels x, if_pos hx, dedup_dedup_append]
    obtain ⟨g', e1, e2, e3, e4, e5, e6⟩ := ih hv (by rw [hl', mem_dedup]; simp [hx])
    refine ⟨g', ?_, e2, ?_, ?_, ?_, ?_⟩
    · simp only [NetM.forEach, NetM.bind, addEdge_ofMG hg]; exact e1
    · rw [e3, hl', dedup_dedup_append]; simp
    · rw [e4]; simp [MG.addEdge, ensure_rot]
    · intro i j
      rw [e5, between_addEdge, List.append_assoc]
      congr 1
      by_cases h1 : x = i <;> by_cases h2 : p.1 = j <;> simp [h1, h2]
    · intro y hy
      rw [e6 y hy]
      congr 1
      have : Dict.get? (MG.addEdge g x p.1 p.2).nodes y = Dict.get? (ensure (ensure g x) p.1).nodes y := rfl
      rw [this]
      have hxx : ensure g x = g := by unfold ensure; rw [if_pos hx]
      rw [hxx]
      by_cases hy' : y ∈ (ensure g p.1).labels
      · rw [get?_ensure _ _ _ hy']; simp
      · rw [Dict.get?_eq_none_iff.2 hy', Dict.get?_eq_none_iff.2]
        intro hm; exact hy' (mem_labels_ensure.2 (Or.inr hm))

theorem adds_ofMG (cfg : Config L A V I σ κ) (added : List (AddReq L A V)) {g : MG L A} (hg : g.Valid) :
    ∃ g', NetM.forEach added (insertReq cfg) (ofMG g) = (.ok (), ofMG g') ∧ g'.Valid ∧
      g'.labels = dedup (g.labels ++ added.flatMap (fun r => r.label :: r.links.map Prod.fst)) ∧ g'.rot = g.rot ∧
      (∀ i j, between g'.edges i j = between g.edges i j ++
        added.flatMap (fun r => if r.label = i then (r.links.filter (fun p => decide (p.1 = j))).map Prod.snd else [])) ∧
      (∀ y ∈ g'.labels, Dict.get? g'.nodes y = some ((added.filter (fun r => decide (r.label = y))).foldl
        (fun (a : Attr A) r => Dict.update a [("activity", cfg.actAttr r.state)]) ((Dict.get? g.nodes y).getD []))) := by
  induction added generalizing g with
  | nil =>
    refine ⟨g, rfl, hg, by simp [dedup_of_nodup hg.nodup], rfl, by simp, ?_⟩
    intro y hy
    obtain ⟨v, hv⟩ := Dict.exists_get?_of_mem_keys (d := g.nodes) (k := y) hy
    simp [hv]
  | cons r added ih =>
    have hv1 := valid_addNode hg r.label [("activity", cfg.actAttr r.state)]
    have hl1 := labels_addNode hg r.label [("activity", cfg.actAttr r.state)]
    obtain ⟨g1, a1, a2, a3, a4, a5, a6⟩ := links_ofMG r.label r.links hv1 (by rw [hl1, mem_dedup]; simp)
    obtain ⟨g', e1, e2, e3, e4, e5, e6⟩ := ih a2
    have hins : insertReq cfg r (ofMG g) = (.ok (), ofMG g1) := by
      unfold insertReq
      rw [NetM.bind_ok (addNode_ofMG hg _ _)]
      exact a1
    refine ⟨g', ?_, e2, ?_, ?_, ?_, ?_⟩
    · simp only [NetM.forEach, NetM.bind, hins]; exact e1
    · rw [e3, a3, hl1, dedup_dedup_append]
      have : ∀ (l m k : List L), dedup ((dedup l ++ m) ++ k) = dedup ((l ++ m) ++ k) := by
        intro l m k
        rw [List.append_assoc, dedup_dedup_append, List.append_assoc]
      rw [this]
      simp
    · rw [e4, a4]; simp [MG.addNode, ensure_rot]
    · intro i j
      rw [e5, a5]
      have : (MG.addNode g r.label [("activity", cfg.actAttr r.state)]).edges = g.edges := by
        simp [MG.addNode, ensure_edges]
      rw [this]
      simp
    · intro y hy
      rw [e6 y hy]
      congr 1
      have hg1 : (Dict.get? g1.nodes y).getD [] =
          if r.label = y then Dict.update ((Dict.get? g.nodes y).getD []) [("activity", cfg.actAttr r.state)]
          else (Dict.get? g.nodes y).getD [] := by
        by_cases hy1 : y ∈ g1.labels
        · rw [a6 y hy1]
          simp only [Option.getD_some, MG.addNode]
          rw [get?_map_update]
          by_cases hye : y ∈ (ensure g r.label).labels
          · rw [get?_ensure _ _ _ hye]
            by_cases h : r.label = y
            · simp [h]
            · have h' : ¬ y = r.label := fun h2 => h h2.symm
              simp [h, h']
          · rw [Dict.get?_eq_none_iff.2 hye]
            have h1 : ¬ r.label = y := by rintro rfl; exact hye (mem_labels_ensure.2 (Or.inl rfl))
            have h2 : Dict.get? g.nodes y = none := Dict.get?_eq_none_iff.2 (fun hm => hye (mem_labels_ensure.2 (Or.inr hm)))
            simp [h1, h2]
        · rw [Dict.get?_eq_none_iff.2 hy1]
          rw [a3, mem_dedup, List.mem_append, hl1, mem_dedup] at hy1
          simp only [List.mem_append, List.mem_singleton, not_or] at hy1
          have h2 : Dict.get? g.nodes y = none := Dict.get?_eq_none_iff.2 hy1.1.1
          have h1 : ¬ r.label = y := fun h => hy1.1.2 h.symm
          simp [h1, h2]
      rw [hg1]
      by_cases h : r.label = y
      · rw [List.filter_cons_of_pos (by simp [h])]
        simp [h]
      · rw [List.filter_cons_of_neg (by simp [h])]
        simp [h]

/-- The whole effect of the requests of one timestep. -/
theorem reqsV_requested {cfg : Config L A V I σ κ} (hcl : cfg.labelCodec.Exact) (hca : cfg.attrCodec.Exact)
    {g : MG L A} (hg : g.Valid) {added : List (AddReq L A V)} {removed : List L} {n : Net L A}
    (hne : ¬ (added.isEmpty && removed.isEmpty) = true)
    (h : reqsV cfg (ofMG g) added removed = .ok n) :
    (∃ g', n = ofMG g' ∧ g'.Valid) ∧ Requested cfg.actAttr added removed (ofMG g) n := by
  unfold reqsV at h
  rw [if_neg hne, copy_ofMG hg (fun x _ => hcl x) (fun _ _ kv _ => hca kv.2) (fun _ _ kv _ => hca kv.2)] at h
  have hg0 : ({ g with rot := none } : MG L A).Valid := ⟨hg.nodup, hg.closed⟩
  simp only at h
  unfold applyReqs at h
  cases hr : NetM.forEach removed Net.removeNode (ofMG { g with rot := none }) with
  | mk o n1 =>
    cases o with
    | error e => rw [NetM.bind_error hr] at h; simp at h
    | ok u =>
      rw [NetM.bind_ok hr] at h
      obtain ⟨g1, e1, e2, e3, e4, e5, e6, e7, e8⟩ := removals_ofMG removed hg0 hr
      subst e1
      obtain ⟨g2, a1, a2, a3, a4, a5, a6⟩ := adds_ofMG cfg added e2
      rw [a1] at h
      simp only [Except.ok.injEq] at h
      subst h
      refine ⟨⟨g2, rfl, a2⟩, e3, ?_, ?_, ?_, ?_, ?_⟩
      · intro x hx; rw [labels_ofMG]; exact e4 x hx
      · rw [labels_ofMG, labels_ofMG, a3, e5]; rfl
      · intro i j
        rw [parallel_ofMG a2, parallel_ofMG hg, a5, e7]
      · intro x hx
        rw [labels_ofMG] at hx
        rw [attrsOf_ofMG, attrsOf_ofMG, a6 x hx, e8]
        by_cases hxr : x ∈ removed <;> simp [hxr]
      · show g2.rot = none
        rw [a4, e6]


/-! ## Activities -/

variable [DecidableEq V] [DecidableEq κ]

/-- Activities before the additions. -/
def outVals (outs : List (L × RuleOut L A V)) : Dict L V :=
  outs.filterMap (fun p => if p.1 ∈ p.2.removed then none else some (p.1, p.2.value))

omit [DecidableEq V] [DecidableEq κ] in
theorem keys_outVals_sub {outs : List (L × RuleOut L A V)} {y : L} (h : y ∈ (outVals outs).keys) :
    y ∈ outs.map Prod.fst := by
  simp only [Dict.keys, outVals, List.mem_map, List.mem_filterMap] at h ⊢
  obtain ⟨q, ⟨p, hp, hq⟩, rfl⟩ := h
  refine ⟨p, hp, ?_⟩
  split at hq
  · cases hq
  · cases hq; rfl

theorem foldNodes_reqs {cfg : Config L A V I σ κ} {R : NodeCtx L A V I → Except Err (RuleOut L A V)}
    (hP : cfg.perturbation = none) (hm : cfg.memoize = false) {ks : KeySpec L A V I κ} {t : Nat} {inp : Inp I}
    {prev : Dict L V} {n : Net L A} {past : Option (List (Option (Dict L V)))} {nmap : Option (Dict L (List L))}
    (ls : List L) (done : List (L × RuleOut L A V)) (acc acc' : Acc L A V σ κ)
    (hnd : (done.map Prod.fst ++ ls).Nodup) (hc : acc.curr = outVals done)
    (h1 : acc.added = allAdded done) (h2 : acc.removed = allRemoved done)
    (h : ls.foldlM (nodeStep cfg ks (reqRule R) t inp prev n past nmap) acc = .ok acc') :
    ∃ outs, outs.map Prod.fst = ls ∧
      (∀ p ∈ outs, ∃ ctx, mkCtx cfg t inp prev n past nmap p.1 = .ok ctx ∧ R ctx = .ok p.2) ∧
      acc'.curr = outVals (done ++ outs) ∧ acc'.added = allAdded (done ++ outs) ∧
      acc'.removed = allRemoved (done ++ outs) := by
  induction ls generalizing done acc with
  | nil =>
    simp only [List.foldlM, pure, Except.pure, Except.ok.injEq] at h
    subst h
    exact ⟨[], rfl, by simp, by simpa using hc, by simpa using h1, by simpa using h2⟩
  | cons x ls ih =>
    simp only [List.foldlM, bind, Except.bind] at h
    cases hs : nodeStep cfg ks (reqRule R) t inp prev n past nmap acc x with
    | error e => simp [hs] at h
    | ok acc1 =>
      simp only [hs] at h
      obtain ⟨ctx, o, u1, g1, g2, g3, g4, g5⟩ := nodeStep_ok hs
      have hR : R ctx = .ok o := by
        unfold applyRule at g2
        simp only [hm, Bool.false_eq_true, if_false, reqRule] at g2
        cases hq : R ctx with
        | error e => simp [hq] at g2
        | ok o' =>
          simp only [hq, Except.ok.injEq, Prod.mk.injEq] at g2
          rw [g2.1]
      have hcur : acc1.curr = outVals (done ++ [(x, o)]) := by
        unfold perturb at g3
        simp only [hP, Except.ok.injEq, Prod.mk.injEq] at g3
        rw [← g3.1, hc]
        unfold outVals
        rw [List.filterMap_append]
        by_cases hx : x ∈ o.removed
        · simp [hx]
        · have : x ∉ Dict.keys (outVals done) := by
            intro hk
            have := keys_outVals_sub hk
            rw [List.nodup_append] at hnd
            exact hnd.2.2 x this x (by simp) rfl
          simp only [hx, if_false]
          rw [show Dict.set (List.filterMap _ done) x o.value = _ from Dict.set_of_not_mem this o.value]
          simp [hx, outVals]
      obtain ⟨outs, e1, e2, e3, e4, e5⟩ := ih (done ++ [(x, o)]) acc1 (by simpa using hnd) hcur
        (by rw [g4, h1]; simp [allAdded]) (by rw [g5, h2]; simp [allRemoved]) h
      refine ⟨(x, o) :: outs, by simp [e1], ?_, by simpa using e3, by simpa using e4, by simpa using e5⟩
      intro p hp
      rcases List.mem_cons.1 hp with rfl | hp
      · exact ⟨ctx, g1, hR⟩
      · exact e2 p hp

omit [DecidableEq V] [DecidableEq κ] in
theorem get?_foldl_set (added : List (AddReq L A V)) (d : Dict L V) (y : L) :
    Dict.get? (added.foldl (fun d r => d.set r.label r.state) d) y =
      match added.reverse.find? (fun r => decide (r.label = y)) with
      | some r => some r.state
      | none => Dict.get? d y := by
  induction added generalizing d with
  | nil => simp
  | cons r added ih =>
    simp only [List.foldl_cons, List.reverse_cons, List.find?_append]
    rw [ih]
    cases hf : added.reverse.find? (fun r => decide (r.label = y)) with
    | some r' => simp
    | none =>
      simp only [Option.none_or, Dict.get?_set]
      by_cases h : r.label = y
      · simp [List.find?_cons, h]
      · have h' : ¬ y = r.label := fun e => h e.symm
        simp [List.find?_cons, h, h']

omit [DecidableEq V] [DecidableEq κ] in
theorem get?_outVals (outs : List (L × RuleOut L A V)) (hn : (outs.map Prod.fst).Nodup) (y : L) :
    Dict.get? (outVals outs) y =
      (outs.find? (fun p => decide (p.1 = y))).bind (fun p => if y ∈ p.2.removed then none else some p.2.value) := by
  induction outs with
  | nil => simp [outVals]
  | cons p outs ih =>
    simp only [List.map_cons, List.nodup_cons] at hn
    have ih := ih hn.2
    unfold outVals at ih ⊢
    by_cases hp : p.1 = y
    · subst hp
      by_cases hr : p.1 ∈ p.2.removed
      · simp only [List.filterMap_cons, hr, if_true, List.find?_cons, decide_true, Option.bind_some]
        exact Dict.get?_eq_none_iff.2 (fun hk => hn.1 (keys_outVals_sub hk))
      · simp [List.filterMap_cons, hr, List.find?_cons, Dict.get?_cons]
    · by_cases hr : p.1 ∈ p.2.removed
      · simp only [List.filterMap_cons, hr, if_true, List.find?_cons, hp, decide_false]; exact ih
      · simp only [List.filterMap_cons, hr, if_false, List.find?_cons, hp, decide_false, Dict.get?_cons]; exact ih

/-- One application of a requesting rule to all nodes. -/
theorem computeActs_reqs {cfg : Config L A V I σ κ} {R : NodeCtx L A V I → Except Err (RuleOut L A V)}
    (hR : cfg.ReqRule R) (hP : cfg.perturbation = none) (hm : cfg.memoize = false) {ks : KeySpec L A V I κ} {t : Nat}
    {inp : Inp I} {prev : Dict L V} {n : Net L A} (hn : n.labels.Nodup) {past : Option (List (Option (Dict L V)))}
    {nmap : Option (Dict L (List L))} (hnm : NmapOk nmap n) {memo : Memo V κ} {u : σ} {acc : Acc L A V σ κ}
    (h : computeActs cfg ks t inp prev n past nmap memo u = .ok acc) :
    ∃ outs, Outcomes cfg R t past inp n prev outs ∧ acc.added = allAdded outs ∧ acc.removed = allRemoved outs ∧
      ∀ y, acc.curr.get? y = specActivity outs y := by
  unfold Config.ReqRule at hR
  unfold computeActs at h
  simp only [hR] at h
  cases hd : doActivityRule cfg ks (reqRule R) t inp prev n past nmap memo u with
  | error e => simp [hd] at h
  | ok acc1 =>
    simp only [hd, Except.ok.injEq] at h
    subst h
    unfold doActivityRule at hd
    obtain ⟨outs, e1, e2, e3, e4, e5⟩ := foldNodes_reqs hP hm n.labels [] _ _ (by simpa using hn) rfl rfl rfl hd
    simp only [List.nil_append] at e3 e4 e5
    refine ⟨outs, ⟨e1, ?_⟩, e4, e5, ?_⟩
    · intro p hp
      obtain ⟨ctx, c1, c2⟩ := e2 p hp
      exact ⟨ctx, (mkCtx_ok_iff hnm).1 c1, c2⟩
    · intro y
      simp only
      rw [get?_foldl_set, e3, e4, get?_outVals outs (by rw [e1]; exact hn)]
      rfl

/-- Networks stay images of multigraphs. -/
theorem Reach.isMG {cfg : Config L A V I σ κ} {ks : KeySpec L A V I κ} (hcl : cfg.labelCodec.Exact)
    (hca : cfg.attrCodec.Exact) (ht : cfg.topology = none) {v0 v : VLoop L A V σ κ}
    (h0 : ∃ g : MG L A, v0.net = ofMG g ∧ g.Valid) (h : Reach cfg ks v0 v) : ∃ g : MG L A, v.net = ofMG g ∧ g.Valid := by
  induction h with
  | refl => exact h0
  | @step va vb inp u' _ _ hs ih =>
    obtain ⟨g, hg1, hg2⟩ := ih
    obtain ⟨past, _, _, hcase⟩ := vstep_ok hs
    rcases hcase with ⟨_, acc, h1, h2, _⟩ | ⟨_, acc, w, h1, _⟩ | ⟨_, acc, w, h1, _⟩
    · by_cases hreq : (acc.added.isEmpty && acc.removed.isEmpty) = true
      · simp only [topoV, reqsV, hreq, if_true, ht, Except.ok.injEq, Prod.mk.injEq] at h2
        exact ⟨g, by rw [← h2.1, ← hg1], hg2⟩
      · unfold topoV at h2
        simp only [ht, hg1] at h2
        cases hq : reqsV cfg (ofMG g) acc.added acc.removed with
        | error e => simp [hq] at h2
        | ok n' =>
          simp only [hq, Except.ok.injEq, Prod.mk.injEq] at h2
          rw [← h2.1]
          exact (reqsV_requested hcl hca hg2 hreq hq).1
    · exact ⟨g, by rw [(topoV_nil ht h1).1, ← hg1], hg2⟩
    · exact ⟨g, by rw [(topoV_nil ht h1).1, ← hg1], hg2⟩

end
end Verif
