import Verif.Proofs.WolframDemo
import Verif.Props.Wolfram
/-! # Property C143: hypergraphs that grow and hang together -/

namespace Verif
open Spec

section
variable {S : Type} [DecidableEq S]

/-- C143: if all symbols of the left-hand side occur on the right-hand side, a rewriting in which the rule is applied `m`
times adds `m` times the difference of the numbers of relations of the two sides, and `m` times as many nodes as the
right-hand side has symbols of its own. -/
theorem C143_grows {lhs out : List (List S)} {c c' : List (List Int)} (h : Rewrites lhs out c c') (hc : ∀ r ∈ c, r ≠ [])
    (hall : ∀ s ∈ lhs.flatten, s ∈ out.flatten) (syms : List S) (hn : syms.Nodup)
    (hs : ∀ s, s ∈ syms ↔ s ∈ out.flatten ∧ s ∉ lhs.flatten) (k : Nat) (hk : HasNodes c k) :
    ∃ m, c'.length + m * lhs.length = c.length + m * out.length ∧ HasNodes c' (k + m * syms.length) := by
  obtain ⟨rest, apps, fresh, h⟩ := h
  have hf : c.filter (fun r => decide (r ≠ [])) = c := by
    rw [List.filter_eq_self]
    intro r hr
    simpa using hc r hr
  rw [hf] at h
  exact ⟨apps.length, rewriting_count h, rewriting_hasNodes h hall hn hs hk⟩

/-- C143: if the right-hand side hangs together and has all symbols of the left-hand side, a rewriting of a hypergraph
that hangs together hangs together. -/
theorem C143_hangs_together {lhs out : List (List S)} {c c' : List (List Int)} (h : Rewrites lhs out c c')
    (hall : ∀ s ∈ lhs.flatten, s ∈ out.flatten) (hne : lhs.flatten ≠ []) (hout : HangsTogether out) (hc : HangsTogether c) :
    HangsTogether c' := by
  obtain ⟨rest, apps, fresh, h⟩ := h
  refine rewriting_hangs h hall hne hout ?_
  have hm : ∀ r x, r ∈ c → x ∈ r → r ∈ c.filter (fun r => decide (r ≠ [])) := by
    intro r x hr hx
    refine List.mem_filter.2 ⟨hr, ?_⟩
    have : r ≠ [] := by rintro rfl; cases hx
    simpa using this
  intro x hx y hy
  have hsub : ∀ x, x ∈ (c.filter (fun r => decide (r ≠ []))).flatten → x ∈ c.flatten := by
    intro x hx
    obtain ⟨r, hr, hx⟩ := List.mem_flatten.1 hx
    exact List.mem_flatten.2 ⟨r, (List.mem_filter.1 hr).1, hx⟩
  refine chain_mono ?_ (hc x (hsub x hx) y (hsub y hy))
  rintro x y ⟨r, hr, h1, h2⟩
  exact ⟨r, hm r x hr h1, h1, h2⟩

end

/-- The right-hand side of the rule of the demo hangs together. -/
theorem wm1167_hangs : HangsTogether wm1167Out := by
  have h1 : ∀ x ∈ wm1167Out.flatten, Related wm1167Out x 1 ∨ ∃ y, Related wm1167Out x y ∧ Related wm1167Out y 1 := by
    intro x hx
    simp [wm1167Out] at hx
    have hx' : x = 1 ∨ x = 2 ∨ x = 3 ∨ x = 4 ∨ x = 5 := by omega
    rcases hx' with rfl | rfl | rfl | rfl | rfl
    · exact Or.inl ⟨[1, 1, 4], by decide, by decide, by decide⟩
    · exact Or.inl ⟨[2, 5, 1], by decide, by decide, by decide⟩
    · exact Or.inr ⟨4, ⟨[5, 4, 3], by decide, by decide, by decide⟩, ⟨[1, 1, 4], by decide, by decide, by decide⟩⟩
    · exact Or.inl ⟨[1, 1, 4], by decide, by decide, by decide⟩
    · exact Or.inl ⟨[2, 5, 1], by decide, by decide, by decide⟩
  have hsymm : ∀ x y, Related wm1167Out x y → Related wm1167Out y x := fun x y ⟨r, hr, a, b⟩ => ⟨r, hr, b, a⟩
  have to1 : ∀ x ∈ wm1167Out.flatten, Relation.TransGen (Related wm1167Out) x 1 := by
    intro x hx
    rcases h1 x hx with h | ⟨y, h, h'⟩
    · exact .single h
    · exact .tail (.single h) h'
  have from1 : ∀ x ∈ wm1167Out.flatten, Relation.TransGen (Related wm1167Out) 1 x := by
    intro x hx
    rcases h1 x hx with h | ⟨y, h, h'⟩
    · exact .single (hsymm _ _ h)
    · exact .tail (.single (hsymm _ _ h')) (hsymm _ _ h)
  exact fun x hx y hy => chain_trans (to1 x hx) (from1 y hy)

section
variable {V I κ : Type} [DecidableEq V] [DecidableEq κ]

/-- C143: the hypergraph of the demo grows by exactly one relation and one node in every timestep, for ever: the network
shown at timestep `t` belongs to `t + 2` relations of three nodes each, of which (after the first timestep) exactly one
has the form `(1, 1, x)` and no other begins with twice the same node; its nodes are `1, ..., t + 1`; it has `2 t + 4`
edges; and it hangs together. -/
theorem C143_demo {cfg : Config Int WVal V I Int κ} {fuel : List (List Int) → Nat} {T : Nat}
    (hc : WolframRun cfg fuel wm1167In wm1167Out T) (hT : 1 ≤ T) (init : Option (Conds Int V))
    {r : Nat} {wd : World Int WVal Int} (hr : wd.heap[r]? = some (wInit wm1167Config).1) (hu : wd.user = (wInit wm1167Config).2)
    {f : Nat} (hf : T ≤ f) :
    ∃ res, evolve f cfg init r wd = .ok res ∧ ∀ t, t < T → ∃ (c : List (List Int)) (n : Net Int WVal),
      res.net cfg t = some n ∧ wConfig n = .ok c ∧ c.length = t + 2 ∧ (∀ r ∈ c, r.length = 3) ∧
      (∀ r ∈ c, isLoop r = true → ∃ b, r = [1, 1, b]) ∧ (1 ≤ t → c.countP isLoop = 1) ∧
      (∀ x : Int, x ∈ n.labels ↔ 1 ≤ x ∧ x ≤ t + 1) ∧ n.edges.length = 2 * t + 4 ∧ NetHangs n := by
  obtain ⟨res, he⟩ := C57_run_total hc ⟨[1, 1, 4], by decide, by decide⟩ hT (config := wm1167Config)
    ⟨[1, 1, 1], by decide, by decide⟩ init hr hu hf
  have hrun := wolfram_run hc hT (config := wm1167Config) ⟨[1, 1, 1], by decide, by decide⟩ init hr hu hf
  rw [he] at hrun
  obtain ⟨configs, h1, h2, h3, h4⟩ := hrun
  have hinv : ∀ t, t < T → ∃ c, configs[t]? = some c ∧ DemoInv t c ∧ HangsTogether c := by
    intro t
    induction t with
    | zero =>
      intro _
      refine ⟨_, h2, demoInv_zero, ?_⟩
      intro x hx y hy
      simp [wm1167Config] at hx hy
      subst hx hy
      exact .single ⟨[1, 1, 1], by decide, by decide, by decide⟩
    | succ t ih =>
      intro ht
      obtain ⟨c, hct, hi, hh⟩ := ih (by omega)
      obtain ⟨c', hct'⟩ : ∃ c', configs[t + 1]? = some c' := ⟨_, List.getElem?_eq_getElem (by omega)⟩
      obtain ⟨hrw, rels, last', hw1, hw2⟩ := h3 t c c' hct hct'
      refine ⟨c', hct', ?_, ?_⟩
      · obtain ⟨rels', g1, g2⟩ := C55_relations c
        rw [hw1] at g1
        cases g1
        have hfl : c.filter (fun r => decide (r ≠ [])) = c := by
          rw [List.filter_eq_self]
          intro r hr
          have := hi.three r hr
          have : r ≠ [] := by rintro rfl; cases this
          simpa using this
        rw [hfl] at g2
        refine demo_step hi g2.symm (hc.fuel rels) ?_ hw2
        apply Int.le_antisymm
        · exact foldl_last_le _ _ (by omega) (fun x hx => ((hi.nodes x).1 hx).2)
        · exact (foldl_last_ge c.flatten 0).2 _ ((hi.nodes _).2 (by omega))
      · exact C143_hangs_together hrw (by decide) (by decide) wm1167_hangs hh
  refine ⟨res, he, ?_⟩
  intro t ht
  obtain ⟨c, hct, hi, hh⟩ := hinv t ht
  obtain ⟨rels, g1, g2⟩ := C55_relations c
  have hfl : c.filter (fun r => decide (r ≠ [])) = c := by
    rw [List.filter_eq_self]
    intro r hr
    have := hi.three r hr
    have : r ≠ [] := by rintro rfl; cases this
    simpa using this
  rw [hfl] at g2
  have hi' := hi.perm g2.symm
  refine ⟨rels, (wInit c).1, by rw [h4, hct]; rfl, g1, hi'.count, hi'.three, hi'.loops, ?_, ?_, ?_, netHangs_wInit hh⟩
  · intro h1t
    rcases hi'.few with h | h
    · exact h
    · have := hi'.count; omega
  · intro x
    rw [mem_labels_wInit, hi.nodes]
  · rw [length_edges_wInit c hi.three, hi.count]; omega

end

namespace ExWolfram

/-- The settings of the demo. -/
def demoCfg (T : Nat) : Config Int WVal Int Int Int Unit :=
  { cfg T with topology := some (wTopologyRule (fun c => c.length + 2) wm1167In wm1167Out) }

theorem demoRun (T : Nat) : WolframRun (demoCfg T) (fun c => c.length + 2) wm1167In wm1167Out T :=
  ⟨rfl, rfl, rfl, fun _ => ⟨rfl, rfl⟩, fun _ => ⟨rfl, rfl⟩, rfl, rfl, by decide, fun _ => Nat.le_refl _⟩

end ExWolfram

/-- The demo: 198 timesteps, 198 nodes and 398 edges in the network shown. -/
example : ∃ res, evolve 198 (ExWolfram.demoCfg 198) none 0 ⟨[(wInit wm1167Config).1], (wInit wm1167Config).2⟩ = .ok res ∧
    ∃ n, res.net (ExWolfram.demoCfg 198) 197 = some n ∧ (∀ x : Int, x ∈ n.labels ↔ 1 ≤ x ∧ x ≤ 198) ∧ n.edges.length = 398 := by
  obtain ⟨res, h1, h2⟩ := C143_demo (ExWolfram.demoRun 198) (by decide) none (r := 0)
    (wd := ⟨[(wInit wm1167Config).1], (wInit wm1167Config).2⟩) rfl rfl (f := 198) (by decide)
  obtain ⟨c, n, g1, _, _, _, _, _, g2, g3, _⟩ := h2 197 (by decide)
  exact ⟨res, h1, n, g1, by intro x; rw [g2]; omega, g3⟩

/-- The hypotheses of `C143_grows` and `C143_hangs_together` are met by the rule of the demo; it adds one relation and one
node per application. -/
example : (∀ s ∈ wm1167In.flatten, s ∈ wm1167Out.flatten) ∧ wm1167In.flatten ≠ [] ∧ wm1167Out.length = wm1167In.length + 1 ∧
    ∀ s, s ∈ [5] ↔ s ∈ wm1167Out.flatten ∧ s ∉ wm1167In.flatten := by
  refine ⟨by decide, by decide, by decide, ?_⟩
  intro s
  simp [wm1167Out, wm1167In]
  omega

example : HasNodes wm1167Config 1 := ⟨[1], by simp, rfl, by intro x; simp [wm1167Config]⟩

/-- Without the hypothesis on the symbols nodes can be lost, and the hypergraph can fall apart. -/
example : wRewrite 9 [["x", "y"]] [["y", "y"]] 3 [[1, 2], [3, 2], [1, 3]] = .ok (3, [[2, 2], [2, 2], [3, 3]]) := by decide +kernel

/-- Two steps of the demo. -/
example : wRewrite 9 wm1167In wm1167Out 1 wm1167Config = .ok (2, [[1, 1, 1], [2, 1, 1], [1, 2, 1]]) ∧
    wRewrite 9 wm1167In wm1167Out 2 [[1, 1, 1], [2, 1, 1], [1, 2, 1]] = .ok (3, [[1, 2, 1], [1, 1, 1], [3, 1, 2], [1, 3, 1]]) := by
  decide +kernel

end Verif
