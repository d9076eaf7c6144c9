import Verif.Model.Wolfram
import Verif.Spec.Wolfram
/-! # Lemmas: matching and rewriting of the Wolfram physics model -/

namespace Verif
open Spec

section
variable {S : Type} [DecidableEq S]

/-! ## Matching -/

/-- Some assignment agrees with the bindings and with the pairs. -/
def Fits (ps : List (S × Int)) (b : Dict S Int) : Prop :=
  ∃ f : S → Int, Agrees f b ∧ ∀ p ∈ ps, f p.1 = p.2

theorem agrees_set {f : S → Int} {b : Dict S Int} {s : S} {x : Int} (hs : b.get? s = none) :
    Agrees f (b.set s x) ↔ Agrees f b ∧ f s = x := by
  unfold Agrees
  constructor
  · intro h
    refine ⟨fun s' x' h' => h s' x' ?_, h s x (by rw [Dict.get?_set]; simp)⟩
    rw [Dict.get?_set]
    by_cases he : s' = s
    · subst he; rw [hs] at h'; cases h'
    · simp only [Ne.symm he, if_false]; exact h'
  · rintro ⟨h1, h2⟩ s' x' h'
    rw [Dict.get?_set] at h'
    split at h'
    · rename_i he
      cases h'; rw [← he]; exact h2
    · exact h1 s' x' h'

theorem erase_added (b0 e : Dict S Int) (added : List S) (h1 : ∀ k ∈ e.keys, k ∈ added) (h2 : ∀ k ∈ b0.keys, k ∉ added) :
    added.foldl (fun b a => b.erase a) (b0 ++ e) = b0 := by
  have key : ∀ (added : List S) (b : Dict S Int), added.foldl (fun b a => b.erase a) b = b.filter (fun p => decide (p.1 ∉ added)) := by
    intro added
    induction added with
    | nil => intro b; exact (List.filter_eq_self.2 (by simp)).symm
    | cons a added ih =>
      intro b
      rw [List.foldl_cons, ih, Dict.erase, List.filter_filter]
      apply List.filter_congr
      intro p _
      simp [List.mem_cons, not_or, Bool.and_comm]
  rw [key, List.filter_append]
  rw [List.filter_eq_self.2, List.filter_eq_nil_iff.2, List.append_nil]
  · intro p hp
    simp only [decide_eq_true_eq, Decidable.not_not]
    exact h1 p.1 (List.mem_map.2 ⟨p, hp, rfl⟩)
  · intro p hp
    simp only [decide_eq_true_eq]
    exact h2 p.1 (List.mem_map.2 ⟨p, hp, rfl⟩)

theorem wMatchLoop_spec (ps : List (S × Int)) (b0 e : Dict S Int) (added : List S) (he : e.keys = added)
    (hd : ∀ k ∈ b0.keys, k ∉ added) :
    ((wMatchLoop ps (b0 ++ e) added).1 = true ↔ Fits ps (b0 ++ e)) ∧
    ((wMatchLoop ps (b0 ++ e) added).1 = false → (wMatchLoop ps (b0 ++ e) added).2 = b0) ∧
    ((wMatchLoop ps (b0 ++ e) added).1 = true →
      Extends (wMatchLoop ps (b0 ++ e) added).2 (b0 ++ e) ∧ (∀ p ∈ ps, (wMatchLoop ps (b0 ++ e) added).2.get? p.1 = some p.2) ∧
      ∀ k, k ∈ (wMatchLoop ps (b0 ++ e) added).2.keys ↔ k ∈ (b0 ++ e : Dict S Int).keys ∨ k ∈ ps.map Prod.fst) := by
  induction ps generalizing e added with
  | nil =>
    refine ⟨⟨fun _ => ⟨fun s => ((b0 ++ e : Dict S Int).get? s).getD 0, fun s x h => by simp [h], by simp⟩, fun _ => rfl⟩, ?_, ?_⟩
    · intro h; simp [wMatchLoop] at h
    · intro _
      exact ⟨fun _ _ h => h, by simp, by simp [wMatchLoop]⟩
  | cons p ps ih =>
    obtain ⟨s, x⟩ := p
    unfold wMatchLoop
    cases hs : (b0 ++ e : Dict S Int).get? s with
    | some y =>
      simp only
      by_cases hxy : x = y
      · subst hxy
        simp only [ne_eq, not_true, if_false]
        obtain ⟨i1, i2, i3⟩ := ih e added he hd
        refine ⟨?_, i2, ?_⟩
        · rw [i1]
          constructor
          · rintro ⟨f, h1, h2⟩
            exact ⟨f, h1, fun p hp => by
              rcases List.mem_cons.1 hp with rfl | hp
              · exact h1 _ _ hs
              · exact h2 p hp⟩
          · rintro ⟨f, h1, h2⟩
            exact ⟨f, h1, fun p hp => h2 p (by simp [hp])⟩
        · intro h
          obtain ⟨j1, j2, j3⟩ := i3 h
          refine ⟨j1, ?_, ?_⟩
          · intro p hp
            rcases List.mem_cons.1 hp with rfl | hp
            · exact j1 _ _ hs
            · exact j2 p hp
          · intro k
            rw [j3 k, List.map_cons, List.mem_cons]
            constructor
            · rintro (h | h)
              · exact Or.inl h
              · exact Or.inr (Or.inr h)
            · rintro (h | h | h)
              · exact Or.inl h
              · subst h; exact Or.inl (Dict.mem_keys_of_get? hs)
              · exact Or.inr h
      · simp only [ne_eq, hxy, not_false_eq_true, if_true]
        refine ⟨?_, fun _ => erase_added b0 e added (fun k hk => by rw [← he]; exact hk) hd, fun h => by cases h⟩
        simp only [Bool.false_eq_true, false_iff]
        rintro ⟨f, h1, h2⟩
        exact hxy (((h2 (s, x) (by simp)).symm.trans (h1 _ _ hs)))
    | none =>
      simp only
      have hnk : s ∉ (b0 ++ e : Dict S Int).keys := Dict.get?_eq_none_iff.1 hs
      have hset : (b0 ++ e : Dict S Int).set s x = b0 ++ (e ++ [(s, x)]) := by
        rw [Dict.set_of_not_mem hnk, List.append_assoc]
      rw [hset]
      obtain ⟨i1, i2, i3⟩ := ih (e ++ [(s, x)]) (added ++ [s]) (by rw [← he]; simp [Dict.keys]) (by
        intro k hk h
        rcases List.mem_append.1 h with h | h
        · exact hd k hk h
        · simp at h; subst h
          apply hnk
          simp only [Dict.keys, List.map_append, List.mem_append] at hk ⊢
          exact Or.inl hk)
      rw [← hset] at i1 i3 ⊢
      rw [← hset] at i2
      refine ⟨?_, i2, ?_⟩
      · rw [i1]
        constructor
        · rintro ⟨f, h1, h2⟩
          rw [agrees_set hs] at h1
          exact ⟨f, h1.1, fun p hp => by
            rcases List.mem_cons.1 hp with rfl | hp
            · exact h1.2
            · exact h2 p hp⟩
        · rintro ⟨f, h1, h2⟩
          exact ⟨f, (agrees_set hs).2 ⟨h1, h2 (s, x) (by simp)⟩, fun p hp => h2 p (by simp [hp])⟩
      · intro h
        obtain ⟨j1, j2, j3⟩ := i3 h
        refine ⟨?_, ?_, ?_⟩
        · intro s' x' h'
          apply j1
          rw [Dict.get?_set]
          by_cases hne : s' = s
          · subst hne; rw [hs] at h'; cases h'
          · simp only [Ne.symm hne, if_false]; exact h'
        · intro p hp
          rcases List.mem_cons.1 hp with rfl | hp
          · exact j1 _ _ (by rw [Dict.get?_set]; simp)
          · exact j2 p hp
        · intro k
          rw [j3 k, Dict.mem_keys_set, List.map_cons, List.mem_cons]
          constructor
          · rintro ((h | h) | h)
            · first | exact Or.inr (Or.inl h) | exact Or.inl h
            · first | exact Or.inr (Or.inl h) | exact Or.inl h
            · exact Or.inr (Or.inr h)
          · rintro (h | h | h)
            · first | exact Or.inl (Or.inl h) | exact Or.inl (Or.inr h)
            · first | exact Or.inl (Or.inl h) | exact Or.inl (Or.inr h)
            · exact Or.inr h

omit [DecidableEq S] in
theorem zip_map {α : Type} (g : S → α) (h : Int → α) : ∀ (rule : List S) (rel : List Int), rule.length = rel.length →
    ((∀ p ∈ rule.zip rel, g p.1 = h p.2) ↔ rule.map g = rel.map h) := by
  intro rule
  induction rule with
  | nil => intro rel hl; cases rel <;> simp_all
  | cons s rule ih =>
    intro rel hl
    cases rel with
    | nil => simp at hl
    | cons x rel =>
      have := ih rel (by simpa using hl)
      simp only [List.zip_cons_cons, List.mem_cons, forall_eq_or_imp, List.map_cons, List.cons.injEq, this]

theorem wMatches_spec (rule : List S) (rel : List Int) (b : Dict S Int) :
    ((wMatches rule rel b).1 = true ↔ ∃ f : S → Int, Agrees f b ∧ rule.map f = rel) ∧
    ((wMatches rule rel b).1 = false → (wMatches rule rel b).2 = b) ∧
    ((wMatches rule rel b).1 = true → Extends (wMatches rule rel b).2 b ∧ rule.map (wMatches rule rel b).2.get? = rel.map some ∧
      ∀ k, k ∈ (wMatches rule rel b).2.keys ↔ k ∈ b.keys ∨ k ∈ rule) := by
  unfold wMatches
  by_cases hl : rule.length = rel.length
  · have h := wMatchLoop_spec (rule.zip rel) b [] [] rfl (by simp)
    rw [List.append_nil] at h
    simp only [hl, ne_eq, not_true, if_false]
    obtain ⟨h1, h2, h3⟩ := h
    refine ⟨?_, h2, ?_⟩
    · rw [h1]
      unfold Fits
      constructor
      · rintro ⟨f, g1, g2⟩
        refine ⟨f, g1, ?_⟩
        have := (zip_map f id rule rel hl).1 g2
        rw [this, List.map_id]
      · rintro ⟨f, g1, g2⟩
        exact ⟨f, g1, (zip_map f id rule rel hl).2 (by rw [g2, List.map_id])⟩
    · intro ht
      obtain ⟨g1, g2, g3⟩ := h3 ht
      refine ⟨g1, (zip_map _ some rule rel hl).1 g2, ?_⟩
      intro k
      rw [g3 k, List.map_fst_zip (by omega)]
  · simp only [hl, ne_eq, not_false_eq_true, if_true]
    refine ⟨?_, fun _ => trivial, fun h => by cases h⟩
    simp only [Bool.false_eq_true, false_iff]
    rintro ⟨f, _, rfl⟩
    simp at hl

/-! ## Scanning -/

theorem wFind_spec (rule : List S) (rels : List (List Int)) (b : Dict S Int) :
    (∀ b', wFind rule rels b = (none, b') → b' = b ∧ ∀ r ∈ rels, (wMatches rule r b).1 = false) ∧
    (∀ r b', wFind rule rels b = (some r, b') → r ∈ rels ∧ Extends b' b ∧ rule.map b'.get? = r.map some ∧
      ∀ k, k ∈ b'.keys ↔ k ∈ b.keys ∨ k ∈ rule) := by
  induction rels with
  | nil => simp [wFind]
  | cons r rels ih =>
    obtain ⟨s1, s2, s3⟩ := wMatches_spec rule r b
    unfold wFind
    cases hm : wMatches rule r b with
    | mk v b1 =>
      rw [hm] at s2 s3
      cases v with
      | true =>
        obtain ⟨h1, h2, h3⟩ := s3 rfl
        refine ⟨fun b' h => by simp at h, ?_⟩
        intro r' b' h
        simp only [Prod.mk.injEq, Option.some.injEq] at h
        obtain ⟨rfl, rfl⟩ := h
        exact ⟨by simp, h1, h2, h3⟩
      | false =>
        have hb : b1 = b := s2 rfl
        subst hb
        simp only
        refine ⟨?_, ?_⟩
        · intro b' h
          obtain ⟨g1, g2⟩ := ih.1 b' h
          refine ⟨g1, ?_⟩
          intro r' hr'
          rcases List.mem_cons.1 hr' with rfl | hr'
          · rw [hm]
          · exact g2 r' hr'
        · intro r' b' h
          obtain ⟨g1, g2⟩ := ih.2 r' b' h
          exact ⟨by simp [g1], g2⟩

omit [DecidableEq S] in
theorem instances_nil (b : Dict S Int) [DecidableEq S] : Instances ([] : List (List S)) b [] := rfl

theorem instances_bound {ps : List (List S)} {b : Dict S Int} {rels : List (List Int)} (h : Instances ps b rels) {s : S}
    (hs : s ∈ ps.flatten) : s ∈ b.keys := by
  obtain ⟨p, hp, hs⟩ := List.mem_flatten.1 hs
  unfold Instances at h
  have hm : p.map b.get? ∈ rels.map (fun r => r.map some) := by rw [← h]; exact List.mem_map.2 ⟨p, hp, rfl⟩
  obtain ⟨r, _, hr⟩ := List.mem_map.1 hm
  have : b.get? s ∈ p.map b.get? := List.mem_map.2 ⟨s, hs, rfl⟩
  rw [← hr] at this
  obtain ⟨x, _, hx⟩ := List.mem_map.1 this
  exact Dict.mem_keys_of_get? hx.symm

theorem instances_mono {ps : List (List S)} {b b' : Dict S Int} {rels : List (List Int)} (h : Instances ps b rels)
    (he : Extends b' b) : Instances ps b' rels := by
  unfold Instances at h ⊢
  rw [← h]
  apply List.map_congr_left
  intro p hp
  apply List.map_congr_left
  intro s hs
  -- every symbol of a matched pattern is bound
  have : ∃ x, b.get? s = some x := by
    have hm : p.map b.get? ∈ rels.map (fun r => r.map some) := by rw [← h]; exact List.mem_map.2 ⟨p, hp, rfl⟩
    obtain ⟨r, _, hr⟩ := List.mem_map.1 hm
    have : b.get? s ∈ p.map b.get? := List.mem_map.2 ⟨s, hs, rfl⟩
    rw [← hr] at this
    obtain ⟨x, _, hx⟩ := List.mem_map.1 this
    exact ⟨x, hx.symm⟩
  obtain ⟨x, hx⟩ := this
  rw [hx, he s x hx]

theorem instances_snoc {ps : List (List S)} {b : Dict S Int} {rels : List (List Int)} {p : List S} {r : List Int}
    (h : Instances ps b rels) (hr : p.map b.get? = r.map some) : Instances (ps ++ [p]) b (rels ++ [r]) := by
  unfold Instances at h ⊢
  rw [List.map_append, List.map_append, h]
  simp [hr]

theorem instances_length {ps : List (List S)} {b : Dict S Int} {rels : List (List Int)} (h : Instances ps b rels) :
    rels.length = ps.length := by
  have := congrArg List.length h
  simpa using this.symm

/-- What holds during a scan after the rules `pre`. -/
structure ScanInv (orig : List (List Int)) (lhs pre : List (List S)) (s : WScan S) : Prop where
  perm : (s.relations ++ s.unmatched ++ s.partially ++ s.matched.flatMap Prod.fst).Perm orig
  groups : ∀ g ∈ s.matched, Instances lhs g.2 g.1 ∧ ∀ k ∈ g.2.keys, k ∈ lhs.flatten
  bound : ∀ k ∈ s.bindings.keys, k ∈ lhs.flatten
  part : s.partially.length < pre.length ∨ Instances pre s.bindings s.partially

theorem wRuleStep_spec {orig : List (List Int)} {lhs pre : List (List S)} {s : WScan S} (h : ScanInv orig lhs pre s)
    (rule : List S) (post : List (List S)) (hl : lhs = pre ++ rule :: post) :
    ScanInv orig lhs (pre ++ [rule]) (wRuleStep lhs.length s rule) ∧
    (wRuleStep lhs.length s rule).relations.length ≤ s.relations.length ∧
    ((wRuleStep lhs.length s rule).scanning = true → (wRuleStep lhs.length s rule).relations.length < s.relations.length) := by
  have hlen : pre.length < lhs.length := by rw [hl]; simp
  have hpl : s.partially.length ≤ pre.length := by
    rcases h.part with h | h
    · omega
    · rw [instances_length h]; omega
  unfold wRuleStep
  obtain ⟨f1, f2⟩ := wFind_spec rule s.relations s.bindings
  cases hf : wFind rule s.relations s.bindings with
  | mk found b =>
    cases found with
    | none =>
      obtain ⟨rfl, _⟩ := f1 b hf
      simp only
      rw [if_neg (by omega)]
      refine ⟨⟨h.perm, h.groups, h.bound, Or.inl (by simp; omega)⟩, by simp, by simp⟩
    | some r =>
      obtain ⟨g1, g2, g3, g4⟩ := f2 r b hf
      have hbk : ∀ k ∈ b.keys, k ∈ lhs.flatten := by
        intro k hk
        rcases (g4 k).1 hk with hk | hk
        · exact h.bound k hk
        · exact List.mem_flatten.2 ⟨rule, by rw [hl]; simp, hk⟩
      have hlt : (s.relations.erase r).length < s.relations.length := by
        have := List.length_erase_of_mem g1
        have := List.length_pos_of_mem g1
        omega
      have hperm : (s.relations.erase r ++ s.unmatched ++ (s.partially ++ [r]) ++ s.matched.flatMap Prod.fst).Perm orig := by
        refine List.Perm.trans ?_ h.perm
        have h1 := (List.perm_cons_erase g1).symm
        refine List.Perm.trans ?_ (((h1.append_right s.unmatched).append_right s.partially).append_right _)
        apply List.Perm.append_right
        rw [← List.append_assoc]
        simp only [List.cons_append]
        exact (List.perm_append_singleton r _)
      simp only
      by_cases hk : (s.partially ++ [r]).length = lhs.length
      · rw [if_pos hk]
        refine ⟨⟨?_, ?_, hbk, Or.inl (by simp)⟩, by simp only; omega, fun _ => hlt⟩
        · simp only [List.flatMap_append, List.flatMap_cons, List.flatMap_nil, List.append_nil]
          refine List.Perm.trans ?_ hperm
          rw [List.append_assoc, List.append_assoc]
          rw [List.append_assoc, List.append_assoc]
          apply List.Perm.append_left
          apply List.Perm.append_left
          rw [← List.append_assoc s.partially]
          exact List.perm_append_comm
        · intro g hg
          rcases List.mem_append.1 hg with hg | hg
          · exact h.groups g hg
          · simp only [List.mem_singleton] at hg
            subst hg
            simp only [List.length_append, List.length_singleton] at hk
            rcases h.part with hp | hp
            · omega
            · have hpost : post = [] := by
                rw [instances_length hp, hl] at hk
                simp at hk
                exact hk
              refine ⟨?_, hbk⟩
              rw [hl, hpost]
              exact instances_snoc (instances_mono hp g2) g3
      · rw [if_neg hk]
        refine ⟨⟨hperm, h.groups, hbk, ?_⟩, by simp only; omega, fun _ => hlt⟩
        rcases h.part with hp | hp
        · left; simp; omega
        · right; exact instances_snoc (instances_mono hp g2) g3

theorem wRules_spec {orig : List (List Int)} {lhs : List (List S)} (post : List (List S)) : ∀ (pre : List (List S)) (s : WScan S),
    ScanInv orig lhs pre s → lhs = pre ++ post →
    ScanInv orig lhs lhs (post.foldl (wRuleStep lhs.length) s) ∧
    (post.foldl (wRuleStep lhs.length) s).relations.length ≤ s.relations.length ∧
    (post ≠ [] → (post.foldl (wRuleStep lhs.length) s).scanning = true →
      (post.foldl (wRuleStep lhs.length) s).relations.length < s.relations.length) := by
  induction post with
  | nil =>
    intro pre s h hl
    rw [List.append_nil] at hl
    subst hl
    exact ⟨h, Nat.le_refl _, fun h => absurd rfl h⟩
  | cons rule post ih =>
    intro pre s h hl
    obtain ⟨g1, g2, g3⟩ := wRuleStep_spec h rule post hl
    obtain ⟨i1, i2, i3⟩ := ih (pre ++ [rule]) _ g1 (by rw [hl]; simp)
    rw [List.foldl_cons]
    refine ⟨i1, by omega, fun _ hs => ?_⟩
    cases post with
    | nil => exact g3 hs
    | cons r p =>
      have := i3 (by simp) hs
      omega

/-- What holds between scans. -/
structure LoopInv (orig : List (List Int)) (lhs : List (List S)) (s : WScan S) : Prop where
  perm : (s.relations ++ s.unmatched ++ s.matched.flatMap Prod.fst).Perm orig
  groups : ∀ g ∈ s.matched, Instances lhs g.2 g.1 ∧ ∀ k ∈ g.2.keys, k ∈ lhs.flatten
  none : s.partially = []

theorem wScanOnce_spec {orig : List (List Int)} {lhs : List (List S)} {s : WScan S} (h : LoopInv orig lhs s) :
    LoopInv orig lhs (wScanOnce lhs s) ∧
    (lhs ≠ [] → (wScanOnce lhs s).scanning = true → (wScanOnce lhs s).relations.length < s.relations.length) := by
  have h0 : ScanInv orig lhs [] { s with bindings := [] } :=
    ⟨by simp only [h.none, List.append_nil]; exact h.perm, h.groups, by simp, Or.inr (by simp only [h.none]; rfl)⟩
  obtain ⟨g1, g2, g3⟩ := wRules_spec lhs [] _ h0 rfl
  unfold wScanOnce
  refine ⟨⟨?_, g1.groups, rfl⟩, g3⟩
  simp only
  rw [← List.append_assoc]
  exact g1.perm

theorem wScanLoop_spec {orig : List (List Int)} {lhs : List (List S)} (hne : lhs ≠ []) : ∀ (fuel : Nat) (s : WScan S),
    LoopInv orig lhs s → s.relations.length + 2 ≤ fuel →
    ∃ s', wScanLoop lhs fuel s = .ok s' ∧ LoopInv orig lhs s' := by
  intro fuel
  induction fuel with
  | zero => intro s _ h; omega
  | succ fuel ih =>
    intro s h hf
    unfold wScanLoop
    cases hs : s.scanning with
    | false => exact ⟨s, rfl, h⟩
    | true =>
      simp only [if_true]
      obtain ⟨g1, g2⟩ := wScanOnce_spec h
      cases hs' : (wScanOnce lhs s).scanning with
      | true =>
        have := g2 hne hs'
        exact ih _ g1 (by omega)
      | false =>
        obtain ⟨fuel, rfl⟩ : ∃ f, fuel = f + 1 := ⟨fuel - 1, by omega⟩
        refine ⟨_, ?_, g1⟩
        unfold wScanLoop
        simp [hs']

/-! ## Instantiation -/

/-- The step of `openSymbols`. -/
def openStep (b : Dict S Int) (acc : List S) (s : S) : List S := if s ∈ b.keys ∨ s ∈ acc then acc else acc ++ [s]

/-- The state of the instantiation after the open symbols `acc` got their nodes. -/
def instState (last : Int) (b : Dict S Int) (acc : List S) : Int × Dict S Int :=
  (last + acc.length, b ++ acc.zipIdx.map (fun p => (p.1, last + 1 + p.2)))

/-- Open symbols are different, and not bound. -/
def OpenOk (b : Dict S Int) (acc : List S) : Prop := acc.Nodup ∧ ∀ s ∈ acc, s ∉ b.keys

theorem openStep_ok {b : Dict S Int} {acc : List S} (h : OpenOk b acc) (s : S) : OpenOk b (openStep b acc s) := by
  unfold openStep
  split
  · exact h
  · rename_i hn
    rw [not_or] at hn
    refine ⟨?_, ?_⟩
    · rw [List.nodup_append]
      refine ⟨h.1, by simp, ?_⟩
      intro a ha c hc
      simp only [List.mem_singleton] at hc
      subst hc
      rintro rfl
      exact hn.2 ha
    · intro k hk
      rcases List.mem_append.1 hk with hk | hk
      · exact h.2 k hk
      · simp only [List.mem_singleton] at hk
        subst hk
        exact hn.1

theorem openFold_ok {b : Dict S Int} (syms : List S) : ∀ {acc : List S}, OpenOk b acc → OpenOk b (syms.foldl (openStep b) acc) := by
  induction syms with
  | nil => intro acc h; exact h
  | cons s syms ih => intro acc h; rw [List.foldl_cons]; exact ih (openStep_ok h s)

omit [DecidableEq S] in
theorem keys_instState (last : Int) (b : Dict S Int) (acc : List S) : (instState last b acc).2.keys = b.keys ++ acc := by
  unfold instState
  simp only [Dict.keys, List.map_append, List.map_map]
  congr 1
  have : (Prod.fst ∘ fun p : S × Nat => (p.1, last + 1 + (p.2 : Int))) = Prod.fst := rfl
  rw [this, List.zipIdx_map_fst]

theorem extends_append (b e : Dict S Int) : Extends (b ++ e) b := by
  intro s x h
  rw [Dict.get?_append, h]
  rfl

theorem extends_openStep (last : Int) (b : Dict S Int) (acc : List S) (s : S) :
    Extends (instState last b (openStep b acc s)).2 (instState last b acc).2 := by
  unfold openStep
  split
  · exact fun _ _ h => h
  · unfold instState
    simp only [List.zipIdx_append, List.map_append]
    rw [← List.append_assoc]
    exact extends_append _ _

theorem extends_openFold (last : Int) (b : Dict S Int) (syms : List S) : ∀ (acc : List S),
    Extends (instState last b (syms.foldl (openStep b) acc)).2 (instState last b acc).2 := by
  induction syms with
  | nil => intro acc _ _ h; exact h
  | cons s syms ih =>
    intro acc k x h
    rw [List.foldl_cons]
    exact ih _ k x (extends_openStep last b acc s k x h)

theorem wSymbol_spec (last : Int) (b : Dict S Int) (acc : List S) (s : S) :
    ∃ x, wSymbol (instState last b acc) s = (instState last b (openStep b acc s), x) ∧
      (instState last b (openStep b acc s)).2.get? s = some x := by
  unfold wSymbol
  cases h : (instState last b acc).2.get? s with
  | some x =>
    have hm : s ∈ b.keys ∨ s ∈ acc := by
      have := Dict.mem_keys_of_get? h
      rw [keys_instState, List.mem_append] at this
      exact this
    refine ⟨x, ?_, ?_⟩ <;> simp only [openStep, if_pos hm]
    exact h
  | none =>
    have hk : s ∉ (instState last b acc).2.keys := Dict.get?_eq_none_iff.1 h
    have hm : ¬ (s ∈ b.keys ∨ s ∈ acc) := by
      rw [keys_instState, List.mem_append] at hk
      exact hk
    have hst : instState last b (openStep b acc s) =
        ((instState last b acc).1 + 1, (instState last b acc).2.set s ((instState last b acc).1 + 1)) := by
      rw [Dict.set_of_not_mem hk, openStep, if_neg hm]
      simp only [instState, List.length_append, List.length_singleton, List.zipIdx_append, List.map_append, List.zipIdx_singleton,
        List.map_cons, List.map_nil, List.append_assoc, Nat.zero_add]
      congr 1
      · omega
      · congr 3
        simp only [Prod.mk.injEq, true_and]
        omega
    refine ⟨(instState last b acc).1 + 1, by rw [hst], ?_⟩
    rw [hst, Dict.get?_set]
    simp

theorem wInstRel_spec (last : Int) (b : Dict S Int) (syms : List S) : ∀ (acc : List S),
    ∃ xs, wInstRel (instState last b acc) syms = (instState last b (syms.foldl (openStep b) acc), xs) ∧
      syms.map (instState last b (syms.foldl (openStep b) acc)).2.get? = xs.map some := by
  induction syms with
  | nil => intro acc; exact ⟨[], rfl, rfl⟩
  | cons s syms ih =>
    intro acc
    obtain ⟨x, h1, h2⟩ := wSymbol_spec last b acc s
    obtain ⟨xs, h3, h4⟩ := ih (openStep b acc s)
    refine ⟨x :: xs, ?_, ?_⟩
    · unfold wInstRel
      rw [h1]
      simp only
      rw [h3]
      rfl
    · rw [List.foldl_cons, List.map_cons, List.map_cons, h4]
      congr 1
      exact extends_openFold last b syms _ s x h2

theorem wInstOut_spec (last : Int) (b : Dict S Int) (out : List (List S)) : ∀ (acc : List S),
    ∃ rels, wInstOut (instState last b acc) out = (instState last b (out.flatten.foldl (openStep b) acc), rels) ∧
      Instances out (instState last b (out.flatten.foldl (openStep b) acc)).2 rels := by
  induction out with
  | nil => intro acc; exact ⟨[], rfl, rfl⟩
  | cons r out ih =>
    intro acc
    obtain ⟨xs, h1, h2⟩ := wInstRel_spec last b r acc
    obtain ⟨rels, h3, h4⟩ := ih (r.foldl (openStep b) acc)
    refine ⟨xs :: rels, ?_, ?_⟩
    · unfold wInstOut
      rw [h1]
      simp only
      rw [h3, List.flatten_cons, List.foldl_append]
    · rw [List.flatten_cons, List.foldl_append]
      unfold Instances at h4 ⊢
      rw [List.map_cons, List.map_cons, h4]
      congr 1
      have : Instances [r] (instState last b (r.foldl (openStep b) acc)).2 [xs] := by simp [Instances, h2]
      have := instances_mono this (extends_openFold last b out.flatten (r.foldl (openStep b) acc))
      simpa [Instances] using this

theorem openSymbols_eq (out : List (List S)) (b : Dict S Int) : openSymbols out b = out.flatten.foldl (openStep b) [] := rfl

/-- The nodes of the open symbols. -/
theorem fresh_eq (last : Int) (b : Dict S Int) (acc : List S) (h : OpenOk b acc) :
    acc.map (instState last b acc).2.get? = (List.range acc.length).map (fun (i : Nat) => some (last + 1 + i)) := by
  apply List.ext_getElem?
  intro i
  simp only [List.getElem?_map]
  by_cases hi : i < acc.length
  · rw [List.getElem?_eq_getElem hi, List.getElem?_range hi]
    simp only [Option.map_some, Option.some.injEq]
    unfold instState
    simp only
    rw [Dict.get?_append, Dict.get?_eq_none_iff.2 (h.2 _ (List.getElem_mem hi))]
    simp only [Option.none_or]
    apply Dict.get?_of_mem
    · have : (Prod.fst ∘ fun p : S × Nat => (p.1, last + 1 + (p.2 : Int))) = Prod.fst := rfl
      rw [Dict.keys, List.map_map, this, List.zipIdx_map_fst]
      exact h.1
    · rw [List.mem_map]
      refine ⟨(acc[i], i), ?_, rfl⟩
      rw [List.mem_zipIdx_iff_getElem?]
      exact List.getElem?_eq_getElem hi
  · rw [List.getElem?_eq_none (by omega), List.getElem?_eq_none (by simp; omega)]
    rfl

theorem wInstAll_spec (out : List (List S)) : ∀ (groups : List (List (List Int) × Dict S Int)) (last : Int),
    ∃ (apps : List (Application S)) (n : Nat) (rels : List (List Int)), wInstAll out last groups = (last + n, rels) ∧
      apps.map (fun a => (a.removed, a.bindings)) = groups ∧
      (∀ a ∈ apps, Instances out a.extended a.created ∧ Extends a.extended a.bindings) ∧
      rels = apps.flatMap Application.created ∧
      apps.flatMap (Application.fresh out) = (List.range n).map (fun (i : Nat) => some (last + 1 + i)) := by
  intro groups
  induction groups with
  | nil => intro last; exact ⟨[], 0, [], by simp [wInstAll], rfl, by simp, rfl, rfl⟩
  | cons g groups ih =>
    intro last
    have hst : (last, g.2) = instState last g.2 [] := by simp [instState]
    obtain ⟨rels, h1, h2⟩ := wInstOut_spec last g.2 out []
    have hok := openFold_ok (b := g.2) out.flatten (acc := []) ⟨by simp, by simp⟩
    rw [← openSymbols_eq] at h1 h2 hok
    obtain ⟨apps, n, rels', e1, e2, e3, e4, e5⟩ := ih (last + (openSymbols out g.2).length)
    refine ⟨⟨g.1, g.2, (instState last g.2 (openSymbols out g.2)).2, rels⟩ :: apps, (openSymbols out g.2).length + n, rels ++ rels', ?_, ?_, ?_, ?_, ?_⟩
    · unfold wInstAll
      rw [hst, h1]
      simp only
      rw [show (instState last g.2 (openSymbols out g.2)).1 = last + (openSymbols out g.2).length from rfl, e1]
      simp only [Prod.mk.injEq, and_true]
      omega
    · rw [List.map_cons, e2]
    · intro a ha
      rcases List.mem_cons.1 ha with rfl | ha
      · exact ⟨h2, by unfold instState; exact extends_append _ _⟩
      · exact e3 a ha
    · rw [List.flatMap_cons, e4]
    · rw [List.flatMap_cons, e5]
      simp only [Application.fresh]
      rw [fresh_eq last g.2 _ hok]
      rw [List.range_add, List.map_append, List.map_map]
      congr 1
      apply List.map_congr_left
      intro i _
      simp only [Function.comp_apply, Option.some.injEq]
      omega

/-- One rewriting of a configuration. -/
theorem wRewrite_spec {lhs : List (List S)} (hne : lhs ≠ []) (out : List (List S)) (last : Int) (config : List (List Int)) {fuel : Nat}
    (hf : config.length + 2 ≤ fuel) :
    ∃ (n : Nat) (new rest : List (List Int)) (apps : List (Application S)), wRewrite fuel lhs out last config = .ok (last + n, new) ∧
      config.Perm (rest ++ apps.flatMap Application.removed) ∧ new = rest ++ apps.flatMap Application.created ∧
      (∀ a ∈ apps, a.Correct lhs out) ∧
      apps.flatMap (Application.fresh out) = (List.range n).map (fun (i : Nat) => some (last + 1 + i)) := by
  have h0 : LoopInv config lhs (⟨config, [], [], [], [], true⟩ : WScan S) := ⟨by simp, by simp, rfl⟩
  obtain ⟨s, h1, h2⟩ := wScanLoop_spec hne fuel _ h0 hf
  obtain ⟨apps, n, rels, e1, e2, e3, e4, e5⟩ := wInstAll_spec out s.matched last
  refine ⟨n, s.relations ++ s.unmatched ++ rels, s.relations ++ s.unmatched, apps, ?_, ?_, by rw [e4], ?_, e5⟩
  · unfold wRewrite
    rw [h1]
    simp only
    rw [e1]
  · refine h2.perm.symm.trans (List.Perm.of_eq ?_)
    rw [← e2, List.flatMap_map]
  · intro a ha
    have hg : (a.removed, a.bindings) ∈ s.matched := by rw [← e2]; exact List.mem_map.2 ⟨a, ha, rfl⟩
    obtain ⟨q1, q2⟩ := h2.groups _ hg
    exact ⟨q1, fun k => ⟨q2 k, instances_bound q1⟩, (e3 a ha).1, (e3 a ha).2⟩

/-! ## The last node -/

theorem foldl_last_ge (xs : List Int) : ∀ l : Int, l ≤ xs.foldl (fun l x => if x > l then x else l) l ∧
    ∀ x ∈ xs, x ≤ xs.foldl (fun l x => if x > l then x else l) l := by
  induction xs with
  | nil => intro l; simp
  | cons y ys ih =>
    intro l
    rw [List.foldl_cons]
    obtain ⟨h1, h2⟩ := ih (if y > l then y else l)
    refine ⟨?_, ?_⟩
    · have : l ≤ (if y > l then y else l) := by split <;> omega
      omega
    · intro x hx
      rcases List.mem_cons.1 hx with rfl | hx
      · have : x ≤ (if x > l then x else l) := by split <;> omega
        omega
      · exact h2 x hx

theorem wInit_last_ge {config : List (List Int)} {r : List Int} (hr : r ∈ config) {x : Int} (hx : x ∈ r) : x ≤ (wInit config).2 :=
  (foldl_last_ge config.flatten 0).2 x (List.mem_flatten.2 ⟨r, hr, hx⟩)

/-- A rewriting whose counter is not below any node. -/
theorem wRewrite_rewriting {lhs : List (List S)} (hne : lhs ≠ []) (out : List (List S)) (last : Int) (config : List (List Int)) {fuel : Nat}
    (hf : config.length + 2 ≤ fuel) (hlast : ∀ r ∈ config, ∀ x ∈ r, x ≤ last) :
    ∃ (last' : Int) (new rest : List (List Int)) (apps : List (Application S)) (fresh : List Int),
      wRewrite fuel lhs out last config = .ok (last', new) ∧ Rewriting lhs out config new rest apps fresh := by
  obtain ⟨n, new, rest, apps, h1, h2, h3, h4, h5⟩ := wRewrite_spec hne out last config hf
  refine ⟨_, new, rest, apps, (List.range n).map (fun (i : Nat) => last + 1 + i), h1, h2, List.Perm.of_eq h3, h4, ?_, ?_, ?_⟩
  · rw [h5, List.map_map]; rfl
  · unfold List.Nodup
    rw [List.pairwise_map]
    exact (List.nodup_range (n := n)).imp (fun h e => h (by omega))
  · intro x hx r hr hxr
    obtain ⟨i, _, rfl⟩ := List.mem_map.1 hx
    have := hlast r hr _ hxr
    omega

/-! ## Rules with one pattern on the left -/

/-- What holds between scans for a left-hand side of one pattern. -/
theorem wScanOnce_single (p : List S) (s : WScan S) (hu : s.unmatched = [] ∧ s.partially = []) :
    (wScanOnce [p] s).unmatched = [] ∧ (wScanOnce [p] s).partially = [] ∧
    ((wScanOnce [p] s).scanning = false → ∀ r ∈ (wScanOnce [p] s).relations, ¬ ∃ f : S → Int, p.map f = r) := by
  unfold wScanOnce
  simp only [List.foldl_cons, List.foldl_nil, List.length_singleton]
  unfold wRuleStep
  obtain ⟨f1, f2⟩ := wFind_spec p s.relations ([] : Dict S Int)
  simp only
  cases hf : wFind p s.relations ([] : Dict S Int) with
  | mk found b =>
    cases found with
    | none =>
      obtain ⟨_, hno⟩ := f1 b hf
      simp only [hu.2, List.length_nil, Nat.zero_ne_one, if_false]
      refine ⟨by simp [hu.1], trivial, fun _ r hr hex => ?_⟩
      obtain ⟨f, hfr⟩ := hex
      have := hno r hr
      rw [((wMatches_spec p r []).1).2 ⟨f, by intro s x h; simp at h, hfr⟩] at this
      cases this
    | some r =>
      simp only [hu.2, List.nil_append, List.length_singleton, if_true]
      exact ⟨by simp [hu.1], trivial, fun h => by simp at h⟩

theorem wScanLoop_single (p : List S) : ∀ (fuel : Nat) (s s' : WScan S), s.unmatched = [] ∧ s.partially = [] →
    (s.scanning = false → ∀ r ∈ s.relations, ¬ ∃ f : S → Int, p.map f = r) → wScanLoop [p] fuel s = .ok s' →
    s'.unmatched = [] ∧ ∀ r ∈ s'.relations, ¬ ∃ f : S → Int, p.map f = r := by
  intro fuel
  induction fuel with
  | zero => intro s s' _ _ h; cases h
  | succ fuel ih =>
    intro s s' hu hs h
    unfold wScanLoop at h
    split at h
    · obtain ⟨a, b, c⟩ := wScanOnce_single p s hu
      exact ih _ s' ⟨a, b⟩ c h
    · rename_i hsc
      cases h
      exact ⟨hu.1, hs (by simpa using hsc)⟩

end
end Verif
