import Verif.Model.WolframDemo
import Verif.Spec.WolframDemo
import Verif.Proofs.Wolfram
import Verif.Proofs.WolframConfig
import Verif.Proofs.Families
/-! # Lemmas about hypergraphs that hang together, and about the rule of the demo -/

namespace Verif
open Spec

section
variable {S : Type}

theorem related_mono {α : Type} {c c' : List (List α)} (h : ∀ r ∈ c, r ∈ c') {x y : α} (hl : Related c x y) : Related c' x y := by
  obtain ⟨r, hr, hx⟩ := hl
  exact ⟨r, h r hr, hx⟩

theorem chain_mono {α : Type} {R Q : α → α → Prop} (h : ∀ x y, R x y → Q x y) {x y : α} (hc : Relation.TransGen R x y) :
    Relation.TransGen Q x y := by
  induction hc with
  | single h1 => exact .single (h _ _ h1)
  | tail _ h1 ih => exact .tail ih (h _ _ h1)

theorem chain_trans {α : Type} {R : α → α → Prop} {x y z : α} (h1 : Relation.TransGen R x y) (h2 : Relation.TransGen R y z) :
    Relation.TransGen R x z := by
  induction h2 with
  | single h => exact .tail h1 h
  | tail _ h ih => exact .tail ih h

/-- A chain of chains is a chain. -/
theorem chain_flatten {α : Type} {R Q : α → α → Prop} (h : ∀ x y, R x y → Relation.TransGen Q x y) {x y : α}
    (hc : Relation.TransGen R x y) : Relation.TransGen Q x y := by
  induction hc with
  | single h1 => exact h _ _ h1
  | tail _ h1 ih => exact chain_trans ih (h _ _ h1)

variable [DecidableEq S]

/-- The node of a symbol of a pattern is in the relation. -/
theorem instances_mem {ps : List (List S)} {b : Dict S Int} {rels : List (List Int)} (h : Instances ps b rels) {p : List S}
    (hp : p ∈ ps) : ∃ r ∈ rels, p.map b.get? = r.map some := by
  have : p.map b.get? ∈ rels.map (fun r => r.map some) := by rw [← h]; exact List.mem_map.2 ⟨p, hp, rfl⟩
  obtain ⟨r, hr, he⟩ := List.mem_map.1 this
  exact ⟨r, hr, he.symm⟩

theorem instances_mem' {ps : List (List S)} {b : Dict S Int} {rels : List (List Int)} (h : Instances ps b rels) {r : List Int}
    (hr : r ∈ rels) : ∃ p ∈ ps, p.map b.get? = r.map some := by
  have : r.map some ∈ ps.map (fun p => p.map b.get?) := by rw [h]; exact List.mem_map.2 ⟨r, hr, rfl⟩
  obtain ⟨p, hp, he⟩ := List.mem_map.1 this
  exact ⟨p, hp, he⟩

theorem map_mem {b : Dict S Int} {p : List S} {r : List Int} (h : p.map b.get? = r.map some) {s : S} (hs : s ∈ p) :
    ∃ x ∈ r, b.get? s = some x := by
  have : b.get? s ∈ r.map some := by rw [← h]; exact List.mem_map.2 ⟨s, hs, rfl⟩
  obtain ⟨x, hx, he⟩ := List.mem_map.1 this
  exact ⟨x, hx, he.symm⟩

theorem map_mem' {b : Dict S Int} {p : List S} {r : List Int} (h : p.map b.get? = r.map some) {x : Int} (hx : x ∈ r) :
    ∃ s ∈ p, b.get? s = some x := by
  have : some x ∈ p.map b.get? := by rw [h]; exact List.mem_map.2 ⟨x, hx, rfl⟩
  obtain ⟨s, hs, he⟩ := List.mem_map.1 this
  exact ⟨s, hs, he⟩

/-- The nodes of the instances are the values of the symbols. -/
theorem instances_nodes {ps : List (List S)} {b : Dict S Int} {rels : List (List Int)} (h : Instances ps b rels) {x : Int} :
    x ∈ rels.flatten ↔ ∃ s ∈ ps.flatten, b.get? s = some x := by
  constructor
  · intro hx
    obtain ⟨r, hr, hx⟩ := List.mem_flatten.1 hx
    obtain ⟨p, hp, he⟩ := instances_mem' h hr
    obtain ⟨s, hs, hb⟩ := map_mem' he hx
    exact ⟨s, List.mem_flatten.2 ⟨p, hp, hs⟩, hb⟩
  · rintro ⟨s, hs, hb⟩
    obtain ⟨p, hp, hs⟩ := List.mem_flatten.1 hs
    obtain ⟨r, hr, he⟩ := instances_mem h hp
    obtain ⟨y, hy, hby⟩ := map_mem he hs
    rw [hb] at hby
    cases hby
    exact List.mem_flatten.2 ⟨r, hr, hy⟩

/-- Chains of symbols become chains of nodes. -/
theorem instances_chain {ps : List (List S)} {b : Dict S Int} {rels : List (List Int)} (h : Instances ps b rels) {s s' : S}
    (hc : Relation.TransGen (Related ps) s s') : ∀ {x x' : Int}, b.get? s = some x → b.get? s' = some x' →
    Relation.TransGen (Related rels) x x' := by
  have key : ∀ {s s' : S}, Related ps s s' → ∀ {x x' : Int}, b.get? s = some x → b.get? s' = some x' → Related rels x x' := by
    rintro s s' ⟨p, hp, hs, hs'⟩ x x' hx hx'
    obtain ⟨r, hr, he⟩ := instances_mem h hp
    obtain ⟨y, hy, hby⟩ := map_mem he hs
    obtain ⟨y', hy', hby'⟩ := map_mem he hs'
    rw [hx] at hby; rw [hx'] at hby'
    cases hby; cases hby'
    exact ⟨r, hr, hy, hy'⟩
  induction hc with
  | single h1 => intro x x' hx hx'; exact .single (key h1 hx hx')
  | tail h1 h2 ih =>
    intro x x' hx hx'
    have h2' := h2
    obtain ⟨p, hp, hs, _⟩ := h2'
    obtain ⟨r, hr, he⟩ := instances_mem h hp
    obtain ⟨y, hy, hby⟩ := map_mem he hs
    exact .tail (ih hx hby) (key h2 hby hx')

/-- If the right-hand side hangs together and has all symbols of the left-hand side, a rewriting of a hypergraph that
hangs together hangs together. -/
theorem rewriting_hangs {lhs out : List (List S)} {c new rest : List (List Int)} {apps : List (Application S)} {fresh : List Int}
    (h : Rewriting lhs out c new rest apps fresh) (hall : ∀ s ∈ lhs.flatten, s ∈ out.flatten) (hne : lhs.flatten ≠ [])
    (hout : HangsTogether out) (hc : HangsTogether c) : HangsTogether new := by
  have hcr : ∀ a ∈ apps, ∀ r ∈ a.created, r ∈ new := fun a ha r hr =>
    h.after.mem_iff.2 (List.mem_append_right _ (List.mem_flatMap.2 ⟨a, ha, hr⟩))
  have hwithin : ∀ a ∈ apps, ∀ x ∈ a.created.flatten, ∀ y ∈ a.created.flatten, Relation.TransGen (Related new) x y := by
    intro a ha x hx y hy
    obtain ⟨s, hs, hsx⟩ := (instances_nodes (h.correct a ha).right).1 hx
    obtain ⟨s', hs', hsy⟩ := (instances_nodes (h.correct a ha).right).1 hy
    exact chain_mono (fun _ _ => related_mono (hcr a ha)) (instances_chain (h.correct a ha).right (hout s hs s' hs') hsx hsy)
  have hremoved : ∀ a ∈ apps, ∀ r ∈ a.removed, ∀ x ∈ r, x ∈ a.created.flatten := by
    intro a ha r hr x hx
    obtain ⟨s, hs, hb⟩ := (instances_nodes (h.correct a ha).left).1 (List.mem_flatten.2 ⟨r, hr, hx⟩)
    exact (instances_nodes (h.correct a ha).right).2 ⟨s, hall s hs, (h.correct a ha).extends_ s x hb⟩
  have hlink : ∀ x y, Related c x y → Relation.TransGen (Related new) x y := by
    rintro x y ⟨r, hr, hx, hy⟩
    rcases List.mem_append.1 (h.before.mem_iff.1 hr) with hr | hr
    · exact .single ⟨r, h.after.mem_iff.2 (List.mem_append_left _ hr), hx, hy⟩
    · obtain ⟨a, ha, hr⟩ := List.mem_flatMap.1 hr
      exact hwithin a ha x (hremoved a ha r hr x hx) y (hremoved a ha r hr y hy)
  have hold : ∀ x ∈ new.flatten, ∃ y ∈ c.flatten, Relation.TransGen (Related new) x y ∧ Relation.TransGen (Related new) y x := by
    intro x hx
    obtain ⟨r, hr, hx⟩ := List.mem_flatten.1 hx
    have hxx : Related new x x := ⟨r, hr, hx, hx⟩
    rcases List.mem_append.1 (h.after.mem_iff.1 hr) with hr | hr
    · exact ⟨x, List.mem_flatten.2 ⟨r, h.before.mem_iff.2 (List.mem_append_left _ hr), hx⟩, .single hxx, .single hxx⟩
    · obtain ⟨a, ha, hr⟩ := List.mem_flatMap.1 hr
      obtain ⟨s, hs⟩ := List.exists_mem_of_ne_nil _ hne
      obtain ⟨p, hp, hsp⟩ := List.mem_flatten.1 hs
      obtain ⟨q, hq, he⟩ := instances_mem (h.correct a ha).left hp
      obtain ⟨y, hy, _⟩ := map_mem he hsp
      have hyc := hremoved a ha q hq y hy
      have hxc : x ∈ a.created.flatten := List.mem_flatten.2 ⟨r, hr, hx⟩
      exact ⟨y, List.mem_flatten.2 ⟨q, h.before.mem_iff.2 (List.mem_append_right _ (List.mem_flatMap.2 ⟨a, ha, hq⟩)), hy⟩,
        hwithin a ha x hxc y hyc, hwithin a ha y hyc x hxc⟩
  intro x hx y hy
  obtain ⟨x', hx', h1, _⟩ := hold x hx
  obtain ⟨y', hy', _, h2⟩ := hold y hy
  exact chain_trans h1 (chain_trans (chain_flatten hlink (hc x' hx' y' hy')) h2)

theorem mem_openFold {b : Dict S Int} (syms : List S) : ∀ (acc : List S) (s : S),
    s ∈ syms.foldl (openStep b) acc ↔ s ∈ acc ∨ (s ∈ syms ∧ s ∉ b.keys) := by
  induction syms with
  | nil => intro acc s; simp
  | cons t syms ih =>
    intro acc s
    rw [List.foldl_cons, ih]
    unfold openStep
    by_cases h : t ∈ b.keys ∨ t ∈ acc
    · rw [if_pos h]
      constructor
      · rintro (h1 | h1)
        · exact Or.inl h1
        · exact Or.inr ⟨List.mem_cons_of_mem _ h1.1, h1.2⟩
      · rintro (h1 | ⟨h1, h2⟩)
        · exact Or.inl h1
        · rcases List.mem_cons.1 h1 with rfl | h1
          · rcases h with h | h
            · exact absurd h h2
            · exact Or.inl h
          · exact Or.inr ⟨h1, h2⟩
    · rw [if_neg h]
      rw [List.mem_append, List.mem_singleton, List.mem_cons]
      constructor
      · rintro ((h1 | rfl) | h1)
        · exact Or.inl h1
        · exact Or.inr ⟨Or.inl rfl, fun h2 => h (Or.inl h2)⟩
        · exact Or.inr ⟨Or.inr h1.1, h1.2⟩
      · rintro (h1 | ⟨rfl | h1, h2⟩)
        · exact Or.inl (Or.inl h1)
        · exact Or.inl (Or.inr rfl)
        · exact Or.inr ⟨h1, h2⟩

theorem mem_openSymbols {out : List (List S)} {b : Dict S Int} {s : S} :
    s ∈ openSymbols out b ↔ s ∈ out.flatten ∧ s ∉ b.keys := by
  rw [openSymbols_eq, mem_openFold]
  simp

theorem length_eq_of_same {α : Type} {l m : List α} (hl : l.Nodup) (hm : m.Nodup) (h : ∀ x, x ∈ l ↔ x ∈ m) : l.length = m.length :=
  Nat.le_antisymm (hl.length_le_of_subset (fun x hx => (h x).1 hx)) (hm.length_le_of_subset (fun x hx => (h x).2 hx))

theorem length_flatMap_const {α β : Type} {f : α → List β} {k : Nat} : ∀ (l : List α), (∀ a ∈ l, (f a).length = k) →
    (l.flatMap f).length = l.length * k
  | [], _ => by simp
  | a :: l, h => by
    rw [List.flatMap_cons, List.length_append, length_flatMap_const l (fun x hx => h x (List.mem_cons_of_mem _ hx)),
      h a (List.mem_cons_self ..), List.length_cons, Nat.succ_mul, Nat.add_comm]

/-- The relations of a rewriting. -/
theorem rewriting_count {lhs out : List (List S)} {c new rest : List (List Int)} {apps : List (Application S)} {fresh : List Int}
    (h : Rewriting lhs out c new rest apps fresh) :
    new.length + apps.length * lhs.length = c.length + apps.length * out.length := by
  rw [h.after.length_eq, h.before.length_eq, List.length_append, List.length_append,
    length_flatMap_const apps (fun a ha => instances_length (h.correct a ha).left),
    length_flatMap_const apps (fun a ha => instances_length (h.correct a ha).right)]
  omega

/-- The nodes of a rewriting that keeps all nodes. -/
theorem rewriting_nodes {lhs out : List (List S)} {c new rest : List (List Int)} {apps : List (Application S)} {fresh : List Int}
    (h : Rewriting lhs out c new rest apps fresh) (hall : ∀ s ∈ lhs.flatten, s ∈ out.flatten) (x : Int) :
    x ∈ new.flatten ↔ x ∈ c.flatten ∨ x ∈ fresh := by
  have hfr : x ∈ fresh ↔ ∃ a ∈ apps, ∃ s ∈ openSymbols out a.bindings, a.extended.get? s = some x := by
    have : x ∈ fresh ↔ some x ∈ fresh.map some := by simp
    rw [this, ← h.nodes]
    simp only [List.mem_flatMap, Application.fresh, List.mem_map]
  rw [hfr]
  constructor
  · intro hx
    obtain ⟨r, hr, hx⟩ := List.mem_flatten.1 hx
    rcases List.mem_append.1 (h.after.mem_iff.1 hr) with hr | hr
    · exact Or.inl (List.mem_flatten.2 ⟨r, h.before.mem_iff.2 (List.mem_append_left _ hr), hx⟩)
    · obtain ⟨a, ha, hr⟩ := List.mem_flatMap.1 hr
      obtain ⟨s, hs, hb⟩ := (instances_nodes (h.correct a ha).right).1 (List.mem_flatten.2 ⟨r, hr, hx⟩)
      by_cases hk : s ∈ a.bindings.keys
      · left
        obtain ⟨y, hy⟩ := Dict.exists_get?_of_mem_keys hk
        have := (h.correct a ha).extends_ s y hy
        rw [hb] at this
        cases this
        have hxr := (instances_nodes (h.correct a ha).left).2 ⟨s, ((h.correct a ha).symbols s).1 hk, hy⟩
        obtain ⟨q, hq, hxq⟩ := List.mem_flatten.1 hxr
        exact List.mem_flatten.2 ⟨q, h.before.mem_iff.2 (List.mem_append_right _ (List.mem_flatMap.2 ⟨a, ha, hq⟩)), hxq⟩
      · exact Or.inr ⟨a, ha, s, mem_openSymbols.2 ⟨hs, hk⟩, hb⟩
  · rintro (hx | ⟨a, ha, s, hs, hb⟩)
    · obtain ⟨r, hr, hx⟩ := List.mem_flatten.1 hx
      rcases List.mem_append.1 (h.before.mem_iff.1 hr) with hr | hr
      · exact List.mem_flatten.2 ⟨r, h.after.mem_iff.2 (List.mem_append_left _ hr), hx⟩
      · obtain ⟨a, ha, hr⟩ := List.mem_flatMap.1 hr
        obtain ⟨s, hs, hb⟩ := (instances_nodes (h.correct a ha).left).1 (List.mem_flatten.2 ⟨r, hr, hx⟩)
        have hxr := (instances_nodes (h.correct a ha).right).2 ⟨s, hall s hs, (h.correct a ha).extends_ s x hb⟩
        obtain ⟨q, hq, hxq⟩ := List.mem_flatten.1 hxr
        exact List.mem_flatten.2 ⟨q, h.after.mem_iff.2 (List.mem_append_right _ (List.mem_flatMap.2 ⟨a, ha, hq⟩)), hxq⟩
    · have hxr := (instances_nodes (h.correct a ha).right).2 ⟨s, (mem_openSymbols.1 hs).1, hb⟩
      obtain ⟨q, hq, hxq⟩ := List.mem_flatten.1 hxr
      exact List.mem_flatten.2 ⟨q, h.after.mem_iff.2 (List.mem_append_right _ (List.mem_flatMap.2 ⟨a, ha, hq⟩)), hxq⟩

/-- The number of new nodes. -/
theorem rewriting_fresh {lhs out : List (List S)} {c new rest : List (List Int)} {apps : List (Application S)} {fresh : List Int}
    (h : Rewriting lhs out c new rest apps fresh) {syms : List S} (hn : syms.Nodup)
    (hs : ∀ s, s ∈ syms ↔ s ∈ out.flatten ∧ s ∉ lhs.flatten) : fresh.length = apps.length * syms.length := by
  have h1 := congrArg List.length h.nodes
  rw [List.length_map] at h1
  rw [← h1]
  apply length_flatMap_const
  intro a ha
  unfold Application.fresh
  rw [List.length_map]
  refine length_eq_of_same ?_ hn ?_
  · rw [openSymbols_eq]
    exact (openFold_ok out.flatten (b := a.bindings) (acc := []) ⟨List.nodup_nil, by simp⟩).1
  · intro s
    rw [mem_openSymbols, hs, (h.correct a ha).symbols]

/-- The number of nodes of a rewriting that keeps all nodes. -/
theorem rewriting_hasNodes {lhs out : List (List S)} {c new rest : List (List Int)} {apps : List (Application S)} {fresh : List Int}
    (h : Rewriting lhs out c new rest apps fresh) (hall : ∀ s ∈ lhs.flatten, s ∈ out.flatten) {syms : List S} (hn : syms.Nodup)
    (hs : ∀ s, s ∈ syms ↔ s ∈ out.flatten ∧ s ∉ lhs.flatten) {k : Nat} (hk : HasNodes c k) :
    HasNodes new (k + apps.length * syms.length) := by
  obtain ⟨l, l1, l2, l3⟩ := hk
  refine ⟨l ++ fresh, ?_, ?_, ?_⟩
  · rw [List.nodup_append]
    refine ⟨l1, h.nodup, ?_⟩
    intro x hx y hy hxy
    subst hxy
    obtain ⟨r, hr, hxr⟩ := List.mem_flatten.1 ((l3 x).1 hx)
    exact h.unused x hy r hr hxr
  · rw [List.length_append, l2, rewriting_fresh h hn hs]
  · intro x
    rw [List.mem_append, l3, rewriting_nodes h hall]

/-- A rewriting, with the number of groups matched. -/
theorem wRewrite_matched {lhs : List (List S)} (hne : lhs ≠ []) (out : List (List S)) (last : Int) (config : List (List Int)) {fuel : Nat}
    (hf : config.length + 2 ≤ fuel) :
    ∃ (n : Nat) (new rest : List (List Int)) (apps : List (Application S)) (s : WScan S),
      wScanLoop lhs fuel ⟨config, [], [], [], [], true⟩ = .ok s ∧ apps.length = s.matched.length ∧
      wRewrite fuel lhs out last config = .ok (last + n, new) ∧
      config.Perm (rest ++ apps.flatMap Application.removed) ∧ new = rest ++ apps.flatMap Application.created ∧
      (∀ a ∈ apps, a.Correct lhs out) ∧
      apps.flatMap (Application.fresh out) = (List.range n).map (fun (i : Nat) => some (last + 1 + i)) := by
  have h0 : LoopInv config lhs (⟨config, [], [], [], [], true⟩ : WScan S) := ⟨by simp, by simp, rfl⟩
  obtain ⟨s, h1, h2⟩ := wScanLoop_spec hne fuel _ h0 hf
  obtain ⟨apps, n, rels, e1, e2, e3, e4, e5⟩ := wInstAll_spec out s.matched last
  refine ⟨n, s.relations ++ s.unmatched ++ rels, s.relations ++ s.unmatched, apps, s, h1, ?_, ?_, ?_, by rw [e4], ?_, e5⟩
  · rw [← e2, List.length_map]
  · unfold wRewrite
    rw [h1]
    simp only
    rw [e1]
  · refine h2.perm.symm.trans (List.Perm.of_eq ?_)
    rw [← e2, List.flatMap_map]
  · intro a ha
    have hg : (a.removed, a.bindings) ∈ s.matched := by rw [← e2]; exact List.mem_map.2 ⟨a, ha, rfl⟩
    obtain ⟨q1, q2⟩ := h2.groups _ hg
    exact ⟨q1, fun k => ⟨q2 k, instances_bound q1⟩, (e3 a ha).1, (e3 a ha).2⟩

theorem wRuleStep_matched (k : Nat) (s : WScan S) (rule : List S) : s.matched.length ≤ (wRuleStep k s rule).matched.length := by
  unfold wRuleStep
  simp only
  split <;> split <;> simp

theorem wRules_matched (k : Nat) (rules : List (List S)) : ∀ s : WScan S, s.matched.length ≤ (rules.foldl (wRuleStep k) s).matched.length := by
  induction rules with
  | nil => intro s; exact Nat.le_refl _
  | cons r rs ih => intro s; exact Nat.le_trans (wRuleStep_matched k s r) (ih _)

theorem wScanOnce_matched (lhs : List (List S)) (s : WScan S) : s.matched.length ≤ (wScanOnce lhs s).matched.length :=
  wRules_matched lhs.length lhs { s with bindings := [] }

theorem wScanLoop_matched (lhs : List (List S)) (fuel : Nat) : ∀ s s' : WScan S, wScanLoop lhs fuel s = .ok s' →
    s.matched.length ≤ s'.matched.length := by
  induction fuel with
  | zero => intro s s' h; cases h
  | succ fuel ih =>
    intro s s' h
    unfold wScanLoop at h
    split at h
    · exact Nat.le_trans (wScanOnce_matched lhs s) (ih _ _ h)
    · cases h; exact Nat.le_refl _

end

/-- A relation made from the first pattern of the demo. -/
theorem loop_of_map {b : Dict Nat Int} {r : List Int} (h : [1, 1, 2].map b.get? = r.map some) :
    ∃ x y, r = [x, x, y] ∧ b.get? 1 = some x ∧ b.get? 2 = some y := by
  rcases r with _ | ⟨x, _ | ⟨x', _ | ⟨y, _ | ⟨z, r⟩⟩⟩⟩ <;> simp at h
  obtain ⟨h1, h2, h3⟩ := h
  rw [h1] at h2
  cases h2
  exact ⟨x, y, rfl, h1, h3⟩

/-- The first scan of the demo finds a match. -/
theorem demo_first {rels : List (List Int)} (h1 : ∃ b, [1, 1, b] ∈ rels) (h2 : ∀ r ∈ rels, isLoop r = true → ∃ b, r = [1, 1, b])
    (h3 : ∀ b, [1, 1, b] ∈ rels → ∃ u v, [u, v, 1] ∈ rels.erase [1, 1, b]) :
    0 < (wScanOnce wm1167In (⟨rels, [], [], [], [], true⟩ : WScan Nat)).matched.length := by
  unfold wScanOnce wm1167In
  simp only [List.length_cons, List.length_nil, List.foldl_cons, List.foldl_nil]
  obtain ⟨f1, f2⟩ := wFind_spec [1, 1, 2] rels ([] : Dict Nat Int)
  cases hw : wFind [1, 1, 2] rels ([] : Dict Nat Int) with
  | mk found b' =>
    cases found with
    | none =>
      exfalso
      obtain ⟨b, hb⟩ := h1
      have := (f1 b' hw).2 _ hb
      rw [(wMatches_spec _ _ _).1.2 ⟨fun s => if s = 1 then 1 else b, by intro s x h; simp [Dict.get?] at h, by simp⟩] at this
      cases this
    | some r =>
      obtain ⟨g1, _, g2, g3⟩ := f2 r b' hw
      obtain ⟨x, y, rfl, gx, gy⟩ := loop_of_map g2
      obtain ⟨_, hxy⟩ := h2 _ g1 (by simp [isLoop])
      simp only [List.cons.injEq, and_true] at hxy
      obtain ⟨rfl, _, rfl⟩ := hxy
      obtain ⟨u, v, huv⟩ := h3 _ g1
      obtain ⟨k1, k2⟩ := wFind_spec [3, 4, 1] (rels.erase [1, 1, y]) b'
      have hs1 : wRuleStep (0 + 1 + 1) (⟨rels, [], [], [], [], true⟩ : WScan Nat) [1, 1, 2] =
          ⟨rels.erase [1, 1, y], [], [], [[1, 1, y]], b', true⟩ := by
        unfold wRuleStep
        rw [hw]
        simp
      rw [hs1]
      cases hw' : wFind [3, 4, 1] (rels.erase [1, 1, y]) b' with
      | mk found b'' =>
        cases found with
        | none =>
          exfalso
          have := (k1 b'' hw').2 _ huv
          rw [(wMatches_spec _ _ _).1.2 ⟨fun s => if s = 1 then 1 else if s = 2 then y else if s = 3 then u else v, by
            intro s x h
            have hk := (g3 s).1 (Dict.mem_keys_of_get? h)
            simp [Dict.keys] at hk
            rcases hk with rfl | rfl
            · rw [gx] at h; cases h; rfl
            · rw [gy] at h; cases h; rfl, by simp⟩] at this
          cases this
        | some r' =>
          unfold wRuleStep
          simp only [hw']
          simp

theorem foldl_last_le {M : Int} : ∀ (xs : List Int) (l : Int), l ≤ M → (∀ x ∈ xs, x ≤ M) →
    xs.foldl (fun l x => if x > l then x else l) l ≤ M
  | [], l, hl, _ => hl
  | x :: xs, l, hl, h => by
    rw [List.foldl_cons]
    refine foldl_last_le xs _ ?_ (fun y hy => h y (List.mem_cons_of_mem _ hy))
    split
    · exact h x (List.mem_cons_self ..)
    · exact hl

/-- What holds for the configuration of the demo after `t` steps. -/
structure DemoInv (t : Nat) (c : List (List Int)) : Prop where
  three : ∀ r ∈ c, r.length = 3
  count : c.length = t + 2
  nodes : ∀ x : Int, x ∈ c.flatten ↔ 1 ≤ x ∧ x ≤ t + 1
  loops : ∀ r ∈ c, isLoop r = true → ∃ b, r = [1, 1, b]
  loop : ∃ b, [1, 1, b] ∈ c
  partner : ∀ b, [1, 1, b] ∈ c → ∃ u v, [u, v, 1] ∈ c.erase [1, 1, b]
  few : c.countP isLoop = 1 ∨ c.length = 2

theorem DemoInv.perm {t : Nat} {c c' : List (List Int)} (h : DemoInv t c) (hp : c.Perm c') : DemoInv t c' := by
  have hm : ∀ r, r ∈ c ↔ r ∈ c' := fun r => hp.mem_iff
  refine ⟨fun r hr => h.three r ((hm r).2 hr), hp.length_eq ▸ h.count, ?_, fun r hr => h.loops r ((hm r).2 hr), ?_, ?_, ?_⟩
  · intro x
    rw [← h.nodes x]
    simp only [List.mem_flatten, hm]
  · obtain ⟨b, hb⟩ := h.loop
    exact ⟨b, (hm _).1 hb⟩
  · intro b hb
    obtain ⟨u, v, huv⟩ := h.partner b ((hm _).2 hb)
    exact ⟨u, v, (hp.erase _).mem_iff.1 huv⟩
  · rw [← hp.countP_eq, ← hp.length_eq]
    exact h.few

theorem demoInv_zero : DemoInv 0 wm1167Config := by
  refine ⟨by decide, rfl, ?_, ?_, ⟨1, by decide⟩, ?_, Or.inr rfl⟩
  · intro x
    simp [wm1167Config]
    omega
  · intro r hr _
    simp [wm1167Config] at hr
    exact ⟨1, hr⟩
  · intro b hb
    simp [wm1167Config] at hb
    subst hb
    exact ⟨1, 1, by decide⟩

theorem countP_flatMap_ge {α β : Type} {f : α → List β} {p : β → Bool} : ∀ (l : List α), (∀ a ∈ l, 0 < (f a).countP p) →
    l.length ≤ (l.flatMap f).countP p
  | [], _ => by simp
  | a :: l, h => by
    have h1 := countP_flatMap_ge l (fun x hx => h x (List.mem_cons_of_mem _ hx))
    have h2 := h a (List.mem_cons_self ..)
    rw [List.flatMap_cons, List.countP_append, List.length_cons]
    omega

/-- The relations matched by the demo. -/
theorem demo_removed {b : Dict Nat Int} {rels : List (List Int)} (h : Instances wm1167In b rels) :
    ∃ x y u v, rels = [[x, x, y], [u, v, x]] ∧ b.get? 1 = some x ∧ b.get? 2 = some y ∧ b.get? 3 = some u ∧ b.get? 4 = some v := by
  unfold Instances wm1167In at h
  rcases rels with _ | ⟨r, _ | ⟨r', _ | ⟨r'', rels⟩⟩⟩
  · simp at h
  · simp at h
  · simp only [List.map_cons, List.map_nil, List.cons.injEq, and_true] at h
    obtain ⟨x, y, rfl, h1, h2⟩ := loop_of_map (b := b) (r := r) h.1
    obtain ⟨_, h⟩ := h
    rcases r' with _ | ⟨u, _ | ⟨v, _ | ⟨w, _ | ⟨z, r'⟩⟩⟩⟩ <;> simp at h
    obtain ⟨h3, h4, h5⟩ := h
    rw [h1] at h5
    cases h5
    exact ⟨x, y, u, v, rfl, h1, h2, h3, h4⟩
  · simp at h

/-- The relations created by the demo. -/
theorem demo_created {b : Dict Nat Int} {rels : List (List Int)} {x y u v : Int} (h : Instances wm1167Out b rels)
    (h1 : b.get? 1 = some x) (h2 : b.get? 2 = some y) (h3 : b.get? 3 = some u) (h4 : b.get? 4 = some v) :
    ∃ e, b.get? 5 = some e ∧ rels = [[x, x, v], [e, v, u], [y, e, x]] := by
  have h5 : ∃ e, b.get? 5 = some e := Dict.exists_get?_of_mem_keys (instances_bound h (by decide))
  obtain ⟨e, h5⟩ := h5
  refine ⟨e, h5, ?_⟩
  unfold Instances wm1167Out at h
  simp only [List.map_cons, List.map_nil, h1, h2, h3, h4, h5] at h
  have hu : ∀ r : List Int, (r.map some).map (fun o : Option Int => o.getD 0) = r := by
    intro r
    induction r with
    | nil => rfl
    | cons a r ih => simp only [List.map_cons, Option.getD_some, ih]
  have hv : ∀ l : List (List Int), (l.map (fun r => r.map some)).map (List.map (fun o : Option Int => o.getD 0)) = l := by
    intro l
    induction l with
    | nil => rfl
    | cons a l ih => rw [List.map_cons, List.map_cons, hu, ih]
  rw [← hv rels, ← h]
  rfl

/-- One step of the demo. -/
theorem demo_step {t : Nat} {c rels : List (List Int)} (hi : DemoInv t c) (hr : c.Perm rels) {fuel : Nat} (hf : rels.length + 2 ≤ fuel)
    {last last' : Int} (hlast : last = t + 1) {new : List (List Int)}
    (hw : wRewrite fuel wm1167In wm1167Out last rels = .ok (last', new)) : DemoInv (t + 1) new := by
  have h := hi.perm hr
  obtain ⟨n, new', rest, apps, s, s1, s2, s3, s4, s5, s6, s7⟩ :=
    wRewrite_matched (lhs := wm1167In) (by decide) wm1167Out last rels hf
  rw [hw] at s3
  obtain ⟨-, rfl⟩ := Prod.mk.inj (Except.ok.inj s3)
  -- one application
  have hge : 0 < apps.length := by
    obtain ⟨fuel, rfl⟩ : ∃ f, fuel = f + 1 := ⟨fuel - 1, by omega⟩
    unfold wScanLoop at s1
    rw [if_pos rfl] at s1
    have := wScanLoop_matched _ _ _ _ s1
    have := demo_first h.loop h.loops h.partner
    omega
  have hlen : rels.length = rest.length + apps.length * 2 := by
    rw [s4.length_eq, List.length_append,
      length_flatMap_const apps (fun a ha => instances_length (s6 a ha).left)]
    rfl
  have hcnt : rels.countP isLoop = rest.countP isLoop + (apps.flatMap Application.removed).countP isLoop := by
    rw [s4.countP_eq, List.countP_append]
  have hpos := countP_flatMap_ge (p := isLoop) apps (f := Application.removed) (by
    intro a ha
    obtain ⟨x, y, u, v, hrm, _⟩ := demo_removed (s6 a ha).left
    rw [hrm]
    simp [List.countP_cons, isLoop])
  have hone : apps.length = 1 ∧ rest.countP isLoop = 0 := by
    rcases h.few with h1 | h1
    · omega
    · have : rest = [] := List.eq_nil_of_length_eq_zero (by omega)
      subst this
      exact ⟨by simp at hlen; omega, rfl⟩
  obtain ⟨a, rfl⟩ := List.length_eq_one_iff.1 hone.1
  have hc := s6 a (by simp)
  simp only [List.flatMap_cons, List.flatMap_nil, List.append_nil] at s4 s5 s7
  obtain ⟨x, y, u, v, hrm, b1, b2, b3, b4⟩ := demo_removed hc.left
  obtain ⟨e, b5, hcr⟩ := demo_created hc.right (hc.extends_ _ _ b1) (hc.extends_ _ _ b2) (hc.extends_ _ _ b3) (hc.extends_ _ _ b4)
  rw [hrm] at s4
  rw [hcr] at s5
  have hx : x = 1 := by
    obtain ⟨b, hb⟩ := h.loops [x, x, y] (s4.mem_iff.2 (by simp)) (by simp [isLoop])
    simp at hb
    exact hb.1
  subst hx
  -- the new node
  have hn : n = 1 := by
    have := congrArg List.length s7
    rw [List.length_map, List.length_range] at this
    rw [← this]
    unfold Application.fresh
    rw [List.length_map]
    refine length_eq_of_same (m := [5]) ?_ (by simp) ?_
    · rw [openSymbols_eq]
      exact (openFold_ok _ (b := a.bindings) (acc := []) ⟨List.nodup_nil, by simp⟩).1
    · intro s
      rw [mem_openSymbols, hc.symbols]
      simp [wm1167Out, wm1167In]
      omega
  have he : e = t + 2 := by
    have : a.extended.get? 5 ∈ a.fresh wm1167Out := by
      unfold Application.fresh
      refine List.mem_map.2 ⟨5, mem_openSymbols.2 ⟨by decide, ?_⟩, rfl⟩
      rw [hc.symbols]
      decide
    rw [s7, hn, b5] at this
    simp at this
    omega
  have hold : ∀ z : Int, z ∈ rest.flatten ∨ z = 1 ∨ z = y ∨ z = u ∨ z = v ↔ 1 ≤ z ∧ z ≤ t + 1 := by
    intro z
    rw [← h.nodes z]
    simp only [List.mem_flatten, s4.mem_iff, List.mem_append, List.mem_cons, List.not_mem_nil, or_false]
    constructor
    · rintro (⟨r, hr, hz⟩ | rfl | rfl | rfl | rfl)
      · exact ⟨r, Or.inl hr, hz⟩
      · exact ⟨_, Or.inr (Or.inl rfl), by simp⟩
      · exact ⟨_, Or.inr (Or.inl rfl), by simp⟩
      · exact ⟨_, Or.inr (Or.inr rfl), by simp⟩
      · exact ⟨_, Or.inr (Or.inr rfl), by simp⟩
    · rintro ⟨r, hr | rfl | rfl, hz⟩
      · exact Or.inl ⟨r, hr, hz⟩
      · simp at hz; omega
      · simp at hz; omega
  have hy := (hold y).1 (by simp)
  have hv := (hold v).1 (by simp)
  have hl1 : isLoop [1, 1, v] = true := by simp [isLoop]
  have hl2 : isLoop [e, v, u] = false := by simp [isLoop]; omega
  have hl3 : isLoop [y, e, 1] = false := by simp [isLoop]; omega
  refine ⟨?_, ?_, ?_, ?_, ?_, ?_, ?_⟩
  · intro r hr
    rw [s5] at hr
    simp only [List.mem_append, List.mem_cons, List.not_mem_nil, or_false] at hr
    rcases hr with hr | rfl | rfl | rfl
    · exact h.three r (s4.mem_iff.2 (List.mem_append_left _ hr))
    · rfl
    · rfl
    · rfl
  · have := h.count
    rw [s5]
    simp at hlen ⊢
    omega
  · intro z
    have : z ∈ new.flatten ↔ (z ∈ rest.flatten ∨ z = 1 ∨ z = y ∨ z = u ∨ z = v) ∨ z = e := by
      rw [s5]
      simp only [List.flatten_append, List.flatten_cons, List.flatten_nil, List.append_nil, List.mem_append, List.mem_cons,
        List.not_mem_nil, or_false]
      by_cases hz : z ∈ rest.flatten
      · simp [hz]
      · simp only [hz, false_or]; omega
    rw [this, hold]
    push_cast
    omega
  · intro r hr hloop
    rw [s5] at hr
    simp only [List.mem_append, List.mem_cons, List.not_mem_nil, or_false] at hr
    rcases hr with hr | rfl | rfl | rfl
    · have := (List.countP_eq_zero.1 hone.2) r hr
      exact absurd hloop this
    · exact ⟨v, rfl⟩
    · rw [hl2] at hloop; cases hloop
    · rw [hl3] at hloop; cases hloop
  · exact ⟨v, by rw [s5]; simp⟩
  · intro b _
    refine ⟨y, e, ?_⟩
    rw [List.mem_erase_of_ne]
    · rw [s5]; simp
    · intro h0
      simp at h0
      omega
  · left
    rw [s5, List.countP_append, hone.2]
    simp [hl1, hl2, hl3]

/-! ## The network of a configuration -/

/-- The pairs of nodes joined by the edges of a relation. -/
def relPairs : List Int → List (Int × Int)
  | [] => []
  | [x] => [(x, x)]
  | x :: y :: r => (x, y) :: (y :: r).zip r

theorem pathParts_pairs (l : List Char) (hyper : Bool) : ∀ (xs : List Int) (p : Int) (k : Nat),
    (pathParts l hyper (some p) k xs).map (fun w => (w.triple.1, w.triple.2.1)) = (p :: xs).zip xs
  | [], _, _ => rfl
  | x :: xs, p, k => by
    simp only [pathParts, List.map_cons, List.zip_cons_cons]
    rw [pathParts_pairs l hyper xs x (k + 1)]
    cases hyper <;> rfl

theorem relParts_pairs (p : List Int × Nat) : (relParts p).map (fun w => (w.triple.1, w.triple.2.1)) = relPairs p.1 := by
  obtain ⟨r, c⟩ := p
  rcases r with _ | ⟨x, _ | ⟨y, r⟩⟩
  · rfl
  · rfl
  · unfold relParts
    rw [List.append_nil, pathParts, pathParts_pairs]
    rfl

theorem wPath_labels (l : List Char) (hyper : Bool) (xs : List Int) : ∀ (prev : Option Int) (k : Nat) (g : MG Int WVal), g.Valid →
    ∃ g' : MG Int WVal, g'.Valid ∧ wPath l hyper prev k xs (ofMG g) = (.ok (), ofMG g') ∧
      ∀ x, x ∈ g'.labels ↔ x ∈ g.labels ∨ ∃ w ∈ pathParts l hyper prev k xs, x = w.triple.1 ∨ x = w.triple.2.1 := by
  induction xs with
  | nil =>
    intro prev k g hg
    refine ⟨g, hg, ?_, ?_⟩
    · cases prev <;> rfl
    · cases prev <;> simp [pathParts]
  | cons y xs ih =>
    intro prev k g hg
    cases prev with
    | none => exact ih (some y) k g hg
    | some p =>
      obtain ⟨g', h1, h2, h3⟩ := ih (some y) (k + 1) (MG.addEdge g p y (wAttr l hyper k)) (valid_addEdge hg p y _)
      refine ⟨g', h1, (NetM.bind_ok (addEdge_ofMG hg p y _)).trans h2, ?_⟩
      intro x
      rw [h3, mem_labels_addEdge']
      simp only [pathParts, List.mem_cons, exists_eq_or_imp]
      have : (if hyper = true then WPart.part l p y k else WPart.pair l p y).triple.1 = p ∧
          (if hyper = true then WPart.part l p y k else WPart.pair l p y).triple.2.1 = y := by
        cases hyper <;> exact ⟨rfl, rfl⟩
      rw [this.1, this.2]
      constructor
      · rintro ((h | h | h) | h)
        · exact Or.inr (Or.inl (Or.inr h))
        · exact Or.inr (Or.inl (Or.inl h))
        · exact Or.inl h
        · exact Or.inr (Or.inr h)
      · rintro (h | (h | h) | h)
        · exact Or.inl (Or.inr (Or.inr h))
        · exact Or.inl (Or.inr (Or.inl h))
        · exact Or.inl (Or.inl h)
        · exact Or.inr h

theorem wRelation_labels (p : List Int × Nat) {g : MG Int WVal} (hg : g.Valid) :
    ∃ g' : MG Int WVal, g'.Valid ∧ wRelation p (ofMG g) = (.ok (), ofMG g') ∧
      ∀ x, x ∈ g'.labels ↔ x ∈ g.labels ∨ ∃ w ∈ relParts p, x = w.triple.1 ∨ x = w.triple.2.1 := by
  obtain ⟨r, c⟩ := p
  obtain ⟨g1, h1, h2, h3⟩ := wPath_labels (wLabel c) (decide (2 < r.length)) r none 0 g hg
  have hb : ∀ k : Unit → NetM Int WVal Unit, NetM.bind (wPath (strInt ((c : Int) + 1)) (decide (2 < r.length)) none 0 r) k (ofMG g) = k () (ofMG g1) :=
    fun k => NetM.bind_ok h2
  rcases r with _ | ⟨x, _ | ⟨y, r⟩⟩
  · exact ⟨g1, h1, hb (fun _ => NetM.pure ()), by intro z; rw [h3]; simp [relParts]⟩
  · refine ⟨MG.addEdge g1 x x _, valid_addEdge h1 x x [("label", .str (strInt ((c : Int) + 1))), ("unary", .flag true)], ?_, ?_⟩
    · exact (hb (fun _ => Net.addEdge x x _)).trans (addEdge_ofMG h1 x x _)
    · intro z
      rw [mem_labels_addEdge', h3]
      simp [relParts, WPart.triple, pathParts]
      constructor
      · rintro (h | h)
        · exact Or.inr h
        · exact Or.inl h
      · rintro (h | h)
        · exact Or.inr h
        · exact Or.inl h
  · exact ⟨g1, h1, hb (fun _ => NetM.pure ()), by intro z; rw [h3]; simp [relParts]⟩

theorem wRelations_labels : ∀ (ps : List (List Int × Nat)) (g : MG Int WVal), g.Valid →
    ∃ g' : MG Int WVal, g'.Valid ∧ NetM.forEach ps wRelation (ofMG g) = (.ok (), ofMG g') ∧
      ∀ x, x ∈ g'.labels ↔ x ∈ g.labels ∨ ∃ w ∈ ps.flatMap relParts, x = w.triple.1 ∨ x = w.triple.2.1 := by
  intro ps
  induction ps with
  | nil => intro g hg; exact ⟨g, hg, rfl, by simp⟩
  | cons p ps ih =>
    intro g hg
    obtain ⟨g1, h1, h2, h3⟩ := wRelation_labels p hg
    obtain ⟨g2, k1, k2, k3⟩ := ih g1 h1
    refine ⟨g2, k1, (NetM.bind_ok (f := fun _ => NetM.forEach ps wRelation) h2).trans k2, ?_⟩
    intro x
    rw [k3, h3]
    simp only [List.flatMap_cons, List.mem_append]
    constructor
    · rintro ((h | ⟨w, hw, h⟩) | ⟨w, hw, h⟩)
      · exact Or.inl h
      · exact Or.inr ⟨w, Or.inl hw, h⟩
      · exact Or.inr ⟨w, Or.inr hw, h⟩
    · rintro (h | ⟨w, hw | hw, h⟩)
      · exact Or.inl (Or.inl h)
      · exact Or.inl (Or.inr ⟨w, hw, h⟩)
      · exact Or.inr ⟨w, hw, h⟩

theorem mem_relPairs {r : List Int} {x : Int} : (∃ q ∈ relPairs r, x = q.1 ∨ x = q.2) ↔ x ∈ r := by
  rcases r with _ | ⟨a, _ | ⟨b, r⟩⟩
  · simp [relPairs]
  · simp [relPairs]
  · have key : ∀ (r : List Int) (a b : Int), (∃ q ∈ (a, b) :: (b :: r).zip r, x = q.1 ∨ x = q.2) ↔ x ∈ a :: b :: r := by
      intro r
      induction r with
      | nil => intro a b; simp
      | cons c r ih =>
        intro a b
        rw [List.mem_cons, ← ih b c]
        simp only [List.zip_cons_cons, List.mem_cons, exists_eq_or_imp]
        constructor
        · rintro ((h | h) | h)
          · exact Or.inl h
          · exact Or.inr (Or.inl (Or.inl h))
          · exact Or.inr h
        · rintro (h | h)
          · exact Or.inl (Or.inl h)
          · exact Or.inr h
    exact key r a b

theorem exists_parts {config : List (List Int)} {P : Int × Int → Prop} :
    (∃ w ∈ config.zipIdx.flatMap relParts, P (w.triple.1, w.triple.2.1)) ↔ ∃ r ∈ config, ∃ q ∈ relPairs r, P q := by
  constructor
  · rintro ⟨w, hw, h⟩
    obtain ⟨p, hp, hw⟩ := List.mem_flatMap.1 hw
    refine ⟨p.1, ?_, (w.triple.1, w.triple.2.1), ?_, h⟩
    · exact List.mem_of_getElem? (List.mem_zipIdx_iff_getElem?.1 hp)
    · rw [← relParts_pairs]
      exact List.mem_map.2 ⟨w, hw, rfl⟩
  · rintro ⟨r, hr, q, hq, h⟩
    obtain ⟨i, hi⟩ := List.getElem?_of_mem hr
    have hp : (r, i) ∈ config.zipIdx := List.mem_zipIdx_iff_getElem?.2 hi
    have hq' : q ∈ (relParts (r, i)).map (fun w => (w.triple.1, w.triple.2.1)) := by rw [relParts_pairs]; exact hq
    obtain ⟨w, hw, rfl⟩ := List.mem_map.1 hq'
    exact ⟨w, List.mem_flatMap.2 ⟨(r, i), hp, hw⟩, h⟩

/-- The nodes of the network of a configuration. -/
theorem mem_labels_wInit (config : List (List Int)) (x : Int) : x ∈ (wInit config).1.labels ↔ x ∈ config.flatten := by
  obtain ⟨g, _, h2, h3⟩ := wRelations_labels config.zipIdx MG.empty valid_empty
  rw [ofMG_empty] at h2
  have : (wInit config).1 = ofMG g := by unfold wInit; rw [h2]
  rw [this, labels_ofMG, h3, List.mem_flatten]
  have h0 : x ∉ (MG.empty : MG Int WVal).labels := by simp [MG.empty, MG.labels]
  simp only [h0, false_or]
  rw [exists_parts (P := fun q => x = q.1 ∨ x = q.2)]
  simp only [mem_relPairs]

/-- The edges of the network of a configuration. -/
theorem mem_edges_wInit (config : List (List Int)) (x y : Int) :
    (∃ a, (x, y, a) ∈ (wInit config).1.edges) ↔ ∃ r ∈ config, (x, y) ∈ relPairs r := by
  obtain ⟨g, ⟨hg, _⟩, h2, _, h4⟩ := wInit_ofMG config
  rw [h2]
  have hm : ∀ e, e ∈ (ofMG g).edges ↔ ∃ w ∈ config.zipIdx.flatMap relParts, w.triple = e := by
    intro e
    rw [(edges_perm hg).mem_iff, show g.edges.map (fun e => (e.src, e.dst, e.attr)) = _ from h4, List.mem_map]
  have := exists_parts (config := config) (P := fun q => q = (x, y))
  simp only [exists_eq_right] at this
  rw [← this]
  constructor
  · rintro ⟨a, ha⟩
    obtain ⟨w, hw, he⟩ := (hm _).1 ha
    exact ⟨w, hw, by rw [he]⟩
  · rintro ⟨w, hw, he⟩
    have h1 := congrArg Prod.fst he
    have h2 := congrArg Prod.snd he
    simp only at h1 h2
    refine ⟨w.triple.2.2, (hm _).2 ⟨w, hw, ?_⟩⟩
    rw [← h1, ← h2]

/-- The number of edges of the network of ternary relations. -/
theorem length_edges_wInit (config : List (List Int)) (h : ∀ r ∈ config, r.length = 3) :
    (wInit config).1.edges.length = config.length * 2 := by
  obtain ⟨g, ⟨hg, _⟩, h2, _, h4⟩ := wInit_ofMG config
  rw [h2, (edges_perm hg).length_eq, show g.edges.map (fun e => (e.src, e.dst, e.attr)) = _ from h4, List.length_map,
    length_flatMap_const (k := 2), List.length_zipIdx]
  intro p hp
  have hr := h p.1 (List.mem_of_getElem? (List.mem_zipIdx_iff_getElem?.1 hp))
  have := congrArg List.length (relParts_pairs p)
  rw [List.length_map] at this
  rw [this]
  obtain ⟨r, c⟩ := p
  rcases r with _ | ⟨x, _ | ⟨y, _ | ⟨z, _ | ⟨w, r⟩⟩⟩⟩ <;> simp_all [relPairs]

/-- A network hangs together if its configuration does. -/
theorem netHangs_wInit {config : List (List Int)} (h : HangsTogether config) : NetHangs (wInit config).1 := by
  have hadj : ∀ r ∈ config, ∀ q ∈ relPairs r, AdjacentIn (wInit config).1 q.1 q.2 ∧ AdjacentIn (wInit config).1 q.2 q.1 := by
    intro r hr q hq
    obtain ⟨a, ha⟩ := (mem_edges_wInit config q.1 q.2).2 ⟨r, hr, hq⟩
    exact ⟨Or.inr ⟨a, Or.inl ha⟩, Or.inr ⟨a, Or.inr ha⟩⟩
  have hzip : ∀ (r : List Int) (a : Int), (∀ q ∈ (a :: r).zip r, AdjacentIn (wInit config).1 q.1 q.2 ∧ AdjacentIn (wInit config).1 q.2 q.1) →
      ∀ x ∈ a :: r, Relation.TransGen (AdjacentIn (wInit config).1) a x ∧ Relation.TransGen (AdjacentIn (wInit config).1) x a := by
    intro r
    induction r with
    | nil =>
      intro a _ x hx
      rw [List.mem_singleton] at hx
      subst hx
      exact ⟨.single (Or.inl rfl), .single (Or.inl rfl)⟩
    | cons b r ih =>
      intro a hq x hx
      rcases List.mem_cons.1 hx with rfl | hx
      · exact ⟨.single (Or.inl rfl), .single (Or.inl rfl)⟩
      · have h1 := hq (a, b) (by simp)
        have h2 := ih b (fun q hqq => hq q (by rw [List.zip_cons_cons]; exact List.mem_cons_of_mem _ hqq)) x hx
        exact ⟨chain_trans (.single h1.1) h2.1, .tail h2.2 h1.2⟩
  have hlink : ∀ x y, Related config x y → Relation.TransGen (AdjacentIn (wInit config).1) x y := by
    rintro x y ⟨r, hr, hx, hy⟩
    rcases r with _ | ⟨a, _ | ⟨b, r⟩⟩
    · cases hx
    · rw [List.mem_singleton] at hx hy
      subst hx hy
      exact .single (Or.inl rfl)
    · have hz := hzip (b :: r) a (fun q hq => hadj _ hr q (by
        simpa only [relPairs, List.zip_cons_cons] using hq))
      exact chain_trans (hz x hx).2 (hz y hy).1
  intro x hx y hy
  exact chain_flatten hlink (h x ((mem_labels_wInit _ _).1 hx) y ((mem_labels_wInit _ _).1 hy))

end Verif
