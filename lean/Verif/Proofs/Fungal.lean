import Verif.Model.Fungal
import Verif.Spec.Fungal
import Verif.Proofs.NetworkX
import Verif.Proofs.NetworkQueries
import Verif.Proofs.Copy
import Verif.Proofs.EvolutionPure
/-! # Lemmas about the growth of a fungal network -/

namespace Verif
open Spec MG

/-! ## Degrees -/

theorem fDegree_lt {n : Nat} {E : Nat → Nat → Prop} (hE : Lattice n E) {as : List (Nat × Nat)} (ha : Exclusive E as) {x y : Nat}
    (hxy : E x y) (hf : Free as (x, y)) : Spec.degree as x < 4 := by
  let o : Nat × Nat → Nat := fun p => if p.1 = x then p.2 else p.1
  have hm : ∀ p ∈ as.filter (fun p => decide (p.1 = x) || decide (p.2 = x)), p ∈ as ∧ (p.1 = x ∨ p.2 = x) := by
    intro p hp
    simpa [List.mem_filter] using hp
  have hnd : ((as.filter (fun p => decide (p.1 = x) || decide (p.2 = x))).map o).Nodup := by
    unfold List.Nodup
    rw [List.pairwise_map]
    refine (ha.once.filter _).imp_of_mem ?_
    rintro ⟨p1, p2⟩ ⟨q1, q2⟩ hp hq hpq ho
    have h1 := (hm _ hp).2
    have h2 := (hm _ hq).2
    apply hpq
    simp only [o] at ho
    simp only [SameLink, Prod.mk.injEq] at *
    split at ho <;> split at ho <;> omega
  have := hE.four x (y :: (as.filter (fun p => decide (p.1 = x) || decide (p.2 = x))).map o) (by
      rw [List.nodup_cons]
      refine ⟨?_, hnd⟩
      rw [List.mem_map]
      rintro ⟨⟨p1, p2⟩, hp, ho⟩
      have h1 := (hm _ hp).2
      have h3 := (hm _ hp).1
      simp only [o] at ho
      split at ho
      · rename_i h; subst h ho; exact hf.1 h3
      · rename_i h; subst ho
        have h5 : p2 = x := by omega
        subst h5; exact hf.2 h3) (by
      intro z hz
      rcases List.mem_cons.1 hz with rfl | hz
      · exact hxy
      obtain ⟨⟨p1, p2⟩, hp, rfl⟩ := List.mem_map.1 hz
      have h1 := (hm _ hp).2
      have h4 := ha.link _ (hm _ hp).1
      simp only [o]
      split
      · rename_i h; subst h; exact h4
      · rename_i h
        have h5 : p2 = x := by omega
        subst h5; exact hE.symm _ _ h4)
  simp only [List.length_cons, List.length_map] at this
  unfold Spec.degree
  omega

theorem fOut_eq {A : Type} (g : MG Nat A) (x : Nat) : MG.outCount g.edges x = Spec.outDegree (arcs g) x := by
  unfold MG.outCount Spec.outDegree arcs
  rw [List.filter_map, List.length_map]
  rfl

theorem fIn_eq {A : Type} (g : MG Nat A) (x : Nat) :
    MG.inCount g.edges x = ((arcs g).filter (fun p => decide (p.2 = x))).length := by
  unfold MG.inCount arcs
  rw [List.filter_map, List.length_map]
  rfl

theorem length_filter_or (as : List (Nat × Nat)) (x : Nat) (h : ∀ p ∈ as, p.1 ≠ p.2) :
    Spec.degree as x = Spec.outDegree as x + (as.filter (fun p => decide (p.2 = x))).length := by
  unfold Spec.degree Spec.outDegree
  induction as with
  | nil => rfl
  | cons p as ih =>
    have h1 := h p (by simp)
    have := ih fun q hq => h q (by simp [hq])
    simp only [List.filter_cons]
    by_cases h2 : p.1 = x
    · have h3 : p.2 ≠ x := by omega
      simp [h2, h3]; omega
    · by_cases h3 : p.2 = x
      · simp [h2, h3]; omega
      · simp [h2, h3]; omega

theorem fDegree_eq {n : Nat} {E : Nat → Nat → Prop} (hE : Lattice n E) {g : MG Nat Rat} (ha : Exclusive E (arcs g)) {x : Nat}
    (hx : x ∈ g.labels) : (ofMG g).degree x = .ok (Spec.degree (arcs g) x : Int) := by
  rw [degree_ofMG hx, length_filter_or, fOut_eq, fIn_eq]
  · simp
  · intro p hp he
    have := ha.link p hp
    rw [he] at this
    exact hE.irrefl _ this

theorem fHasEdge {g : MG Nat Rat} (hg : g.Valid) (i j : Nat) : (ofMG g).hasEdge i j = decide ((i, j) ∈ arcs g) := by
  rw [hasEdge_ofMG hg]
  congr 1
  rw [mem_sources, arcs, List.mem_map]
  simp only [Prod.mk.injEq]

/-! ## The loop over the links -/

/-- The edges that one link contributes, and the number of random numbers drawn. -/
def fOut (as : List (Nat × Nat)) (s rnd : Nat → Rat) (u : Nat) (l : Nat × Nat) : List (Nat × Nat) × Nat :=
  if l ∉ as ∧ (l.2, l.1) ∉ as then
    if s l.1 > 0 then
      if s l.2 > 0 then (if rnd u < 1 / 2 then [l] else [(l.2, l.1)], u + 1)
      else (if rnd u < 1 / (4 - (Spec.degree as l.1 : Rat)) then [l] else [], u + 1)
    else if s l.2 > 0 then (if rnd u < 1 / (4 - (Spec.degree as l.2 : Rat)) then [(l.2, l.1)] else [], u + 1)
    else ([], u)
  else ([], u)

/-- The edges that a list of links contributes. -/
def fGrow (as : List (Nat × Nat)) (s rnd : Nat → Rat) : Nat → List (Nat × Nat) → List (Nat × Nat) × Nat
  | u, [] => ([], u)
  | u, l :: ls => ((fOut as s rnd u l).1 ++ (fGrow as s rnd (fOut as s rnd u l).2 ls).1, (fGrow as s rnd (fOut as s rnd u l).2 ls).2)

/-- The multigraph with further edges without attributes. -/
def fAdd (g : MG Nat Rat) (ps : List (Nat × Nat)) : MG Nat Rat := { g with edges := g.edges ++ ps.map (fun p => ⟨p.1, p.2, []⟩) }

theorem fAdd_edge {g : MG Nat Rat} {i j : Nat} (hi : i ∈ g.labels) (hj : j ∈ g.labels) (ps : List (Nat × Nat)) :
    MG.addEdge (fAdd g ps) i j [] = fAdd g (ps ++ [(i, j)]) := by
  have h1 : MG.ensure (fAdd g ps) i = fAdd g ps := if_pos hi
  have h2 : MG.ensure (fAdd g ps) j = fAdd g ps := if_pos hj
  unfold MG.addEdge
  rw [h1, h2]
  simp [fAdd]

theorem fAdd_valid {g : MG Nat Rat} (hg : g.Valid) {ps : List (Nat × Nat)} (h : ∀ p ∈ ps, p.1 ∈ g.labels ∧ p.2 ∈ g.labels) :
    (fAdd g ps).Valid := by
  refine ⟨hg.nodup, ?_⟩
  intro e he
  rcases List.mem_append.1 he with he | he
  · exact hg.closed e he
  · obtain ⟨p, hp, rfl⟩ := List.mem_map.1 he
    exact h p hp

theorem fAdd_addEdge {g : MG Nat Rat} (hg : g.Valid) {ps : List (Nat × Nat)} (h : ∀ p ∈ ps, p.1 ∈ g.labels ∧ p.2 ∈ g.labels)
    {i j : Nat} (hi : i ∈ g.labels) (hj : j ∈ g.labels) :
    Net.addEdge i j [] (ofMG (fAdd g ps)) = (.ok (), ofMG (fAdd g (ps ++ [(i, j)]))) := by
  rw [addEdge_ofMG (fAdd_valid hg h), fAdd_edge hi hj]

theorem fTry_ok {n : Nat} {E : Nat → Nat → Prop} (hE : Lattice n E) {g g' : MG Nat Rat} (ha : Exclusive E (arcs g))
    (hg' : g'.Valid) (hl : g'.labels = g.labels) (rnd : Nat → Rat) {ps : List (Nat × Nat)}
    (h : ∀ p ∈ ps, p.1 ∈ g.labels ∧ p.2 ∈ g.labels) {a b : Nat} (hab : E a b) (hf : Free (arcs g) (a, b))
    (hia : a ∈ g.labels) (hib : b ∈ g.labels) (u : Nat) :
    fungalTry rnd (ofMG g) a b (ofMG (fAdd g' ps), u) =
      .ok (ofMG (fAdd g' (ps ++ if rnd u < 1 / (4 - (Spec.degree (arcs g) a : Rat)) then [(a, b)] else [])), u + 1) := by
  have hd := fDegree_lt hE ha hab hf
  unfold fungalTry
  rw [fDegree_eq hE ha hia]
  simp only
  rw [if_neg (by omega)]
  have hc : ((4 - (Spec.degree (arcs g) a : Int) : Int) : Rat) = 4 - (Spec.degree (arcs g) a : Rat) := by
    rw [Rat.intCast_sub]; rfl
  rw [hc]
  by_cases hr : rnd u < 1 / (4 - (Spec.degree (arcs g) a : Rat))
  · rw [if_pos hr, if_pos hr, fAdd_addEdge hg' (by rw [hl]; exact h) (by rw [hl]; exact hia) (by rw [hl]; exact hib)]
  · rw [if_neg hr, if_neg hr]; simp

theorem fLink_ok {n : Nat} {E : Nat → Nat → Prop} (hE : Lattice n E) {g g' : MG Nat Rat} (hg : g.Valid) (ha : Exclusive E (arcs g))
    (hn : g.labels = List.range n) (hg' : g'.Valid) (hl : g'.labels = g.labels) (rnd s : Nat → Rat) {acts : Dict Nat Rat}
    (hs : ∀ x, x < n → acts.get? x = some (s x)) {ps : List (Nat × Nat)}
    (h : ∀ p ∈ ps, p.1 ∈ g.labels ∧ p.2 ∈ g.labels) {l : Nat × Nat} (hL : E l.1 l.2) (u : Nat) :
    fungalLink rnd (ofMG g) acts (ofMG (fAdd g' ps), u) l =
      .ok (ofMG (fAdd g' (ps ++ (fOut (arcs g) s rnd u l).1)), (fOut (arcs g) s rnd u l).2) := by
  have h1 : l.1 < n := hE.range _ _ hL
  have h2 : l.2 < n := hE.range _ _ (hE.symm _ _ hL)
  have hi : l.1 ∈ g.labels := by rw [hn]; simpa using h1
  have hj : l.2 ∈ g.labels := by rw [hn]; simpa using h2
  have e1 : acts.get l.1 = .ok (s l.1) := Dict.get_eq_ok_iff.2 (hs _ h1)
  have e2 : acts.get l.2 = .ok (s l.2) := Dict.get_eq_ok_iff.2 (hs _ h2)
  unfold fungalLink
  rw [e1]
  simp only
  rw [e2]
  simp only
  rw [fHasEdge hg, fHasEdge hg]
  simp only [decide_eq_false_iff_not]
  unfold fOut
  by_cases hf : l ∉ arcs g ∧ (l.2, l.1) ∉ arcs g
  · rw [if_pos hf, if_pos hf]
    by_cases hi0 : s l.1 > 0
    · rw [if_pos hi0, if_pos hi0]
      by_cases hj0 : s l.2 > 0
      · rw [if_pos hj0, if_pos hj0]
        by_cases hr : rnd u < 1 / 2
        · simp only [if_pos hr]
          rw [fAdd_addEdge hg' (by rw [hl]; exact h) (by rw [hl]; exact hi) (by rw [hl]; exact hj)]
        · simp only [if_neg hr]
          rw [fAdd_addEdge hg' (by rw [hl]; exact h) (by rw [hl]; exact hj) (by rw [hl]; exact hi)]
      · rw [if_neg hj0, if_neg hj0]
        exact fTry_ok hE ha hg' hl rnd h hL hf hi hj u
    · rw [if_neg hi0, if_neg hi0]
      by_cases hj0 : s l.2 > 0
      · rw [if_pos hj0, if_pos hj0]
        exact fTry_ok hE ha hg' hl rnd h (hE.symm _ _ hL) ⟨hf.2, hf.1⟩ hj hi u
      · rw [if_neg hj0, if_neg hj0]; simp
  · rw [if_neg hf, if_neg hf]; simp

theorem fOut_mem {as : List (Nat × Nat)} {s rnd : Nat → Rat} {u : Nat} {l p : Nat × Nat} (h : p ∈ (fOut as s rnd u l).1) :
    SameLink p l ∧ Free as l := by
  unfold fOut at h
  by_cases hf : l ∉ as ∧ (l.2, l.1) ∉ as
  · refine ⟨?_, hf⟩
    rw [if_pos hf] at h
    unfold SameLink
    repeat' split at h
    all_goals simp at h
    all_goals first | exact Or.inl h | exact Or.inr h
  · rw [if_neg hf] at h; simp at h

theorem fLinks_ok {n : Nat} {E : Nat → Nat → Prop} (hE : Lattice n E) {g g' : MG Nat Rat} (hg : g.Valid) (ha : Exclusive E (arcs g))
    (hn : g.labels = List.range n) (hg' : g'.Valid) (hl : g'.labels = g.labels) (rnd s : Nat → Rat) {acts : Dict Nat Rat}
    (hs : ∀ x, x < n → acts.get? x = some (s x)) (ls : List (Nat × Nat)) : ∀ (ps : List (Nat × Nat)) (u : Nat),
    (∀ p ∈ ps, p.1 ∈ g.labels ∧ p.2 ∈ g.labels) → (∀ l ∈ ls, E l.1 l.2) →
    ls.foldlM (fungalLink rnd (ofMG g) acts) (ofMG (fAdd g' ps), u) =
      .ok (ofMG (fAdd g' (ps ++ (fGrow (arcs g) s rnd u ls).1)), (fGrow (arcs g) s rnd u ls).2) := by
  induction ls with
  | nil => intro ps u _ _; simp [fGrow, pure, Except.pure]
  | cons l ls ih =>
    intro ps u h hL
    have hl1 := hL l (by simp)
    rw [List.foldlM_cons, fLink_ok hE hg ha hn hg' hl rnd s hs h hl1 u]
    refine (ih _ _ ?_ (fun m hm => hL m (by simp [hm]))).trans ?_
    · intro p hp
      rcases List.mem_append.1 hp with hp | hp
      · exact h p hp
      · have h1 : l.1 < n := hE.range _ _ hl1
        have h2 : l.2 < n := hE.range _ _ (hE.symm _ _ hl1)
        rw [hn]
        simp only [List.mem_range]
        rcases (fOut_mem hp).1 with rfl | rfl
        · exact ⟨h1, h2⟩
        · exact ⟨h2, h1⟩
    · simp [fGrow]

/-! ## What has grown -/

theorem fGrow_mem {as : List (Nat × Nat)} {s rnd : Nat → Rat} {ls : List (Nat × Nat)} : ∀ {u : Nat} {p : Nat × Nat},
    p ∈ (fGrow as s rnd u ls).1 → ∃ l ∈ ls, SameLink p l ∧ Free as l := by
  induction ls with
  | nil => intro u p h; simp [fGrow] at h
  | cons l ls ih =>
    intro u p h
    simp only [fGrow, List.mem_append] at h
    rcases h with h | h
    · exact ⟨l, by simp, fOut_mem h⟩
    · obtain ⟨m, hm, h'⟩ := ih h
      exact ⟨m, by simp [hm], h'⟩

theorem sameLink_symm {p q : Nat × Nat} (h : SameLink p q) : SameLink q p := by
  obtain ⟨p1, p2⟩ := p; obtain ⟨q1, q2⟩ := q
  simp only [SameLink, Prod.mk.injEq] at *
  omega

theorem sameLink_trans {p q r : Nat × Nat} (h : SameLink p q) (h' : SameLink q r) : SameLink p r := by
  obtain ⟨p1, p2⟩ := p; obtain ⟨q1, q2⟩ := q; obtain ⟨r1, r2⟩ := r
  simp only [SameLink, Prod.mk.injEq] at *
  omega

theorem free_same {as : List (Nat × Nat)} {p l : Nat × Nat} (h : SameLink p l) (hf : Free as l) : Free as p := by
  rcases h with rfl | rfl
  · exact hf
  · exact ⟨hf.2, hf.1⟩

theorem fOut_pairwise {as : List (Nat × Nat)} {s rnd : Nat → Rat} {u : Nat} {l : Nat × Nat} :
    (fOut as s rnd u l).1.Pairwise (fun p q => ¬ SameLink p q) := by
  unfold fOut
  repeat' split
  all_goals simp

theorem fGrow_pairwise {as : List (Nat × Nat)} {s rnd : Nat → Rat} {ls : List (Nat × Nat)}
    (h : ls.Pairwise (fun l m => ¬ SameLink l m)) : ∀ {u : Nat}, (fGrow as s rnd u ls).1.Pairwise (fun p q => ¬ SameLink p q) := by
  induction ls with
  | nil => intro u; simp [fGrow]
  | cons l ls ih =>
    intro u
    rw [List.pairwise_cons] at h
    simp only [fGrow]
    rw [List.pairwise_append]
    refine ⟨fOut_pairwise, ih h.2, ?_⟩
    intro p hp q hq hpq
    obtain ⟨m, hm, h1, _⟩ := fGrow_mem hq
    exact h.1 m hm (sameLink_trans (sameLink_symm (fOut_mem hp).1) (sameLink_trans hpq h1))

theorem arcs_fAdd (g : MG Nat Rat) (ps : List (Nat × Nat)) : arcs (fAdd g ps) = arcs g ++ ps := by
  simp [arcs, fAdd, Function.comp_def]

theorem fExclusive {n : Nat} {E : Nat → Nat → Prop} (hE : Lattice n E) {as ls : List (Nat × Nat)} (ha : Exclusive E as)
    (hv : Visits E ls) (s rnd : Nat → Rat) (u : Nat) : Exclusive E (as ++ (fGrow as s rnd u ls).1) := by
  refine ⟨?_, ?_⟩
  · intro p hp
    rcases List.mem_append.1 hp with hp | hp
    · exact ha.link p hp
    · obtain ⟨l, hl, h1, _⟩ := fGrow_mem hp
      rcases h1 with rfl | rfl
      · exact hv.link _ hl
      · exact hE.symm _ _ (hv.link _ hl)
  · rw [List.pairwise_append]
    refine ⟨ha.once, fGrow_pairwise hv.once, ?_⟩
    intro p hp q hq hpq
    obtain ⟨l, hl, h1, hf⟩ := fGrow_mem hq
    have := free_same (sameLink_trans hpq h1) hf
    exact this.1 hp

theorem fOut_count (as : List (Nat × Nat)) (s rnd : Nat → Rat) (u : Nat) (l : Nat × Nat) : u ≤ (fOut as s rnd u l).2 := by
  unfold fOut
  repeat' split
  all_goals simp

theorem fGrow_count (as : List (Nat × Nat)) (s rnd : Nat → Rat) (ls : List (Nat × Nat)) : ∀ u, u ≤ (fGrow as s rnd u ls).2 := by
  induction ls with
  | nil => intro u; simp [fGrow]
  | cons l ls ih => intro u; exact Nat.le_trans (fOut_count as s rnd u l) (ih _)

theorem not_gt_rat {a : Rat} : ¬ a > 0 ↔ a ≤ 0 := Rat.not_lt

/-- The contribution of each link, with the number of the random number that decides it. -/
theorem fGrow_links (as : List (Nat × Nat)) (s rnd : Nat → Rat) {ls : List (Nat × Nat)} (hirr : ∀ p, p.1 = p.2 → ¬ p ∈ ls)
    (h : ls.Pairwise (fun l m => ¬ SameLink l m)) : ∀ u, ∃ draw : Nat × Nat → Nat,
    (∀ l ∈ ls, u ≤ draw l) ∧
    (∀ l ∈ ls, ∀ p, SameLink p l → (p ∈ (fGrow as s rnd u ls).1 ↔ p ∈ (fOut as s rnd (draw l) l).1)) ∧
    (∀ l ∈ ls, ∀ m ∈ ls, Free as l → Free as m → (0 < s l.1 ∨ 0 < s l.2) → (0 < s m.1 ∨ 0 < s m.2) → draw l = draw m → l = m) ∧
    (∀ l ∈ ls, Free as l → (0 < s l.1 ∨ 0 < s l.2) → draw l < (fGrow as s rnd u ls).2) := by
  induction ls with
  | nil => intro u; exact ⟨fun _ => 0, by simp, by simp, by simp, by simp⟩
  | cons l ls ih =>
    intro u
    rw [List.pairwise_cons] at h
    obtain ⟨draw, h1, h2, h3, h4⟩ := ih (fun p hp hm => hirr p hp (by simp [hm])) h.2 (fOut as s rnd u l).2
    have hne : ∀ m ∈ ls, m ≠ l := by
      rintro m hm rfl
      exact h.1 m hm (Or.inl rfl)
    have hdraw' : Free as l → (0 < s l.1 ∨ 0 < s l.2) → u < (fOut as s rnd u l).2 := by
      intro hf hs
      unfold fOut
      rw [if_pos (show l ∉ as ∧ (l.2, l.1) ∉ as from hf)]
      by_cases g1 : s l.1 > 0
      · rw [if_pos g1]
        split <;> simp
      · rw [if_neg g1, if_pos (hs.resolve_left g1)]
        simp
    have hdraw : Free as l → (0 < s l.1 ∨ 0 < s l.2) → ∀ m ∈ ls, u < draw m :=
      fun hf hs m hm => Nat.lt_of_lt_of_le (hdraw' hf hs) (h1 m hm)
    refine ⟨fun m => if m = l then u else draw m, ?_, ?_, ?_, ?_⟩
    · intro m hm
      rcases List.mem_cons.1 hm with rfl | hm
      · simp
      · simp only [hne m hm, if_false]
        exact Nat.le_trans (fOut_count _ _ _ _ _) (h1 m hm)
    · intro m hm p hp
      simp only [fGrow, List.mem_append]
      rcases List.mem_cons.1 hm with rfl | hm
      · simp only [if_true]
        constructor
        · rintro (h' | h')
          · exact h'
          · obtain ⟨k, hk, h4, _⟩ := fGrow_mem h'
            exact absurd (sameLink_trans (sameLink_symm hp) h4) (h.1 k hk)
        · exact Or.inl
      · simp only [hne m hm, if_false]
        rw [← h2 m hm p hp]
        constructor
        · rintro (h' | h')
          · exact absurd (sameLink_trans (sameLink_symm (fOut_mem h').1) hp) (h.1 m hm)
          · exact h'
        · exact Or.inr
    · intro a ha b hb fa fb sa sb hab
      simp only [List.mem_cons] at ha hb
      rcases ha with ea | ha <;> rcases hb with eb | hb
      · rw [ea, eb]
      · subst ea
        simp only [if_true, hne b hb, if_false] at hab
        have := hdraw fa sa b hb
        omega
      · subst eb
        simp only [if_true, hne a ha, if_false] at hab
        have := hdraw fb sb a ha
        omega
      · simp only [hne a ha, hne b hb, if_false] at hab
        exact h3 a ha b hb fa fb sa sb hab
    · intro a ha fa sa
      simp only [List.mem_cons] at ha
      rcases ha with ea | ha
      · subst ea
        simp only [if_true]
        exact Nat.lt_of_lt_of_le (hdraw' fa sa) (fGrow_count _ _ _ _ _)
      · simp only [hne a ha, if_false]
        exact h4 a ha fa sa

theorem fGrowth {n : Nat} {E : Nat → Nat → Prop} (hE : Lattice n E) {as ls : List (Nat × Nat)}
    (hv : Visits E ls) (s rnd : Nat → Rat) (u : Nat) :
    ∃ draw, Growth ls s rnd u (fGrow as s rnd u ls).2 as (as ++ (fGrow as s rnd u ls).1) draw := by
  have hirr : ∀ l ∈ ls, l.1 ≠ l.2 := by
    intro l hl he
    have := hv.link l hl
    rw [he] at this
    exact hE.irrefl _ this
  obtain ⟨draw, h1, h2, h3, h4⟩ := fGrow_links as s rnd (fun p hp hm => hirr p hm hp) hv.once u
  have hmem : ∀ l ∈ ls, Free as l → ∀ p, SameLink p l → (p ∈ as ++ (fGrow as s rnd u ls).1 ↔ p ∈ (fOut as s rnd (draw l) l).1) := by
    intro l hl hf p hp
    rw [List.mem_append, ← h2 l hl p hp]
    have := (free_same hp hf).1
    simp [this]
  have hsw : ∀ l ∈ ls, (l.2, l.1) ≠ l := by
    rintro ⟨a, b⟩ hl he
    simp only [Prod.mk.injEq] at he
    exact hirr _ hl he.2
  refine ⟨draw, ⟨?_, ?_, ?_, ?_, ?_, ?_, h3, fun l hl hf hs => ⟨h1 l hl, h4 l hl hf hs⟩⟩⟩
  · intro p hp; exact List.mem_append_left _ hp
  · intro p hp hn
    rcases List.mem_append.1 hp with hp | hp
    · exact absurd hp hn
    · obtain ⟨l, _, h4, h5⟩ := fGrow_mem hp
      exact free_same h4 h5
  · intro l hl hf g1 g2
    have e : (fOut as s rnd (draw l) l).1 = [] := by
      unfold fOut
      rw [if_pos (show l ∉ as ∧ (l.2, l.1) ∉ as from hf), if_neg (not_gt_rat.2 g1), if_neg (not_gt_rat.2 g2)]
    refine ⟨?_, ?_⟩
    · rw [hmem l hl hf l (Or.inl rfl), e]; simp
    · rw [hmem l hl hf (l.2, l.1) (Or.inr rfl), e]; simp
  · intro l hl hf g1 g2
    have e : (fOut as s rnd (draw l) l).1 = if rnd (draw l) < 1 / (4 - (Spec.degree as l.1 : Rat)) then [l] else [] := by
      unfold fOut
      rw [if_pos (show l ∉ as ∧ (l.2, l.1) ∉ as from hf), if_pos g1, if_neg (not_gt_rat.2 g2)]
    rw [hmem l hl hf l (Or.inl rfl), hmem l hl hf (l.2, l.1) (Or.inr rfl), e]
    have := hsw l hl
    split <;> simp_all
  · intro l hl hf g1 g2
    have e : (fOut as s rnd (draw l) l).1 = if rnd (draw l) < 1 / (4 - (Spec.degree as l.2 : Rat)) then [(l.2, l.1)] else [] := by
      unfold fOut
      rw [if_pos (show l ∉ as ∧ (l.2, l.1) ∉ as from hf), if_neg (not_gt_rat.2 g1), if_pos g2]
    rw [hmem l hl hf l (Or.inl rfl), hmem l hl hf (l.2, l.1) (Or.inr rfl), e]
    have := (hsw l hl).symm
    split <;> simp_all
  · intro l hl hf g1 g2
    have e : (fOut as s rnd (draw l) l).1 = if rnd (draw l) < 1 / 2 then [l] else [(l.2, l.1)] := by
      unfold fOut
      rw [if_pos (show l ∉ as ∧ (l.2, l.1) ∉ as from hf), if_pos g1, if_pos g2]
    rw [hmem l hl hf l (Or.inl rfl), hmem l hl hf (l.2, l.1) (Or.inr rfl), e]
    have h1 := hsw l hl
    have h2 := (hsw l hl).symm
    split <;> simp_all

/-! ## The loop over the weights -/

/-- The only possible attribute of an edge is its weight. -/
def Plain (g : MG Nat Rat) : Prop := ∀ e ∈ g.edges, e.attr = [] ∨ ∃ w, e.attr = [("weight", w)]

theorem outDegree_pos {as : List (Nat × Nat)} {p : Nat × Nat} (h : p ∈ as) : 0 < Spec.outDegree as p.1 := by
  unfold Spec.outDegree
  exact List.length_pos_of_mem (List.mem_filter.2 ⟨h, by simp⟩)

theorem fWeights_ok (es : List (Nat × Nat × Attr Rat)) : ∀ {g : MG Nat Rat}, g.Valid → Plain g →
    (∀ e ∈ es, (e.1, e.2.1) ∈ arcs g) →
    ∃ g', NetM.forEach es fungalWeight (ofMG g) = (.ok (), ofMG g') ∧ g'.Valid ∧ Plain g' ∧ arcs g' = arcs g ∧ g'.nodes = g.nodes ∧
      g'.rot = g.rot ∧
      (∀ P : Nat × Nat → Prop, (∀ e ∈ g.edges, P (e.src, e.dst) → e.attr = [("weight", 1 / (Spec.outDegree (arcs g) e.src : Rat))]) →
        ∀ e ∈ g'.edges, (P (e.src, e.dst) ∨ ∃ a, (e.src, e.dst, a) ∈ es) →
          e.attr = [("weight", 1 / (Spec.outDegree (arcs g) e.src : Rat))]) := by
  induction es with
  | nil =>
    intro g hg hp _
    refine ⟨g, rfl, hg, hp, rfl, rfl, rfl, ?_⟩
    intro P hP e he h
    rcases h with h | ⟨a, h⟩
    · exact hP e he h
    · cases h
  | cons x es ih =>
    intro g hg hp hx
    obtain ⟨i, j, a0⟩ := x
    have hij : (i, j) ∈ arcs g := hx (i, j, a0) (by simp)
    have hpos : 0 < Spec.outDegree (arcs g) i := outDegree_pos hij
    have hsrc : i ∈ sources g.edges j := by
      rw [mem_sources]
      obtain ⟨e, he, h⟩ := List.mem_map.1 hij
      simp only [Prod.mk.injEq] at h
      exact ⟨e, he, h⟩
    have hb : ¬ between g.edges i j = [] := by rw [between_eq_nil_iff]; exact fun h => h hsrc
    let w : Rat := 1 / (Spec.outDegree (arcs g) i : Rat)
    let g1 := MG.updateAll g i j [("weight", w)]
    have hstep : fungalWeight (i, j, a0) (ofMG g) = (.ok (), ofMG g1) := by
      unfold fungalWeight
      rw [outDegree_ofMG (mem_labels_of_mem_sources hg hsrc).1, fOut_eq]
      simp only
      rw [if_neg (by omega), (updateEdge_ofMG hg i j none _).1]
      simp only [MG.exec, if_neg hb]
      rfl
    have hends : arcs g1 = arcs g := sameEnds_updateAll g i j _
    have hg1 : g1.Valid := valid_sameEnds hg (sameEnds_updateAll g i j _)
    have hmem : ∀ e ∈ g1.edges, ∃ e0 ∈ g.edges, e.src = e0.src ∧ e.dst = e0.dst ∧
        ((e.src = i ∧ e.dst = j ∧ e.attr = [("weight", w)]) ∨ (¬ (e.src = i ∧ e.dst = j) ∧ e.attr = e0.attr)) := by
      intro e he
      obtain ⟨e0, he0, rfl⟩ := List.mem_map.1 he
      refine ⟨e0, he0, ?_⟩
      by_cases h : e0.src = i ∧ e0.dst = j
      · rw [if_pos h]
        refine ⟨rfl, rfl, Or.inl ⟨h.1, h.2, ?_⟩⟩
        rcases hp e0 he0 with h' | ⟨v, h'⟩ <;> simp [h', Dict.update, Dict.set]
      · rw [if_neg h]
        exact ⟨rfl, rfl, Or.inr ⟨h, rfl⟩⟩
    have hp1 : Plain g1 := by
      intro e he
      obtain ⟨e0, he0, _, _, h | h⟩ := hmem e he
      · exact Or.inr ⟨_, h.2.2⟩
      · rw [h.2]; exact hp e0 he0
    obtain ⟨g', h1, h2, h3, h4, h5, h6, h7⟩ := ih hg1 hp1 (fun e he => by rw [hends]; exact hx e (by simp [he]))
    refine ⟨g', (NetM.bind_ok hstep).trans h1, h2, h3, by rw [h4, hends], h5, h6, ?_⟩
    intro P hP e he h
    have := h7 (fun p => P p ∨ p = (i, j)) (by
      intro e he h
      rw [hends]
      obtain ⟨e0, he0, g1, g2, h' | h'⟩ := hmem e he
      · rw [h'.2.2, h'.1]
      · rw [h'.2, g1]
        refine hP e0 he0 ?_
        rw [← g1, ← g2]
        refine h.resolve_right ?_
        rw [Prod.mk.injEq]
        exact h'.1) e he (by
      rcases h with h | ⟨a, h⟩
      · exact Or.inl (Or.inl h)
      · rcases List.mem_cons.1 h with h | h
        · simp only [Prod.mk.injEq] at h
          exact Or.inl (Or.inr (by rw [h.1, h.2.1]))
        · exact Or.inr ⟨a, h⟩)
    rw [hends] at this
    exact this

/-! ## The topology rule -/

theorem fungal_labels {n : Nat} {E : Nat → Nat → Prop} {g : MG Nat Rat} (h : Fungal n E g) : g.labels = List.range n := by
  unfold MG.labels
  rw [h.nodes]
  simp [Function.comp_def]

theorem fungal_plain {n : Nat} {E : Nat → Nat → Prop} {g : MG Nat Rat} (h : Fungal n E g) : Plain g :=
  fun e he => Or.inr ⟨_, h.weighted e he⟩

theorem fungal_copy {n : Nat} {E : Nat → Nat → Prop} {g : MG Nat Rat} (h : Fungal n E g) {cl : Codec Nat} {ca : Codec Rat}
    (hcl : ∀ x, x < n → cl.ExactAt x) (hca : ∀ d : Nat, 0 < d → ca.ExactAt (1 / (d : Rat))) : (ofMG g).copy cl ca = .ok (ofMG g) := by
  rw [copy_ofMG h.valid]
  · rw [← h.rot]
  · intro x hx; rw [fungal_labels h] at hx; exact hcl x (by simpa using hx)
  · intro e he kv hkv
    rw [h.weighted e he] at hkv
    simp only [List.mem_singleton] at hkv
    rw [hkv]
    exact hca _ (outDegree_pos (List.mem_map.2 ⟨e, he, rfl⟩ : (e.src, e.dst) ∈ arcs g))
  · intro p hp kv hkv
    rw [h.nodes] at hp
    obtain ⟨x, _, rfl⟩ := List.mem_map.1 hp
    cases hkv

theorem fTopology_ok {n : Nat} {E : Nat → Nat → Prop} (hE : Lattice n E) {g : MG Nat Rat} (hg : Fungal n E g)
    {cl : Codec Nat} {ca : Codec Rat} (hcl : ∀ x, x < n → cl.ExactAt x) (hca : ∀ d : Nat, 0 < d → ca.ExactAt (1 / (d : Rat)))
    {links : Nat → List (Nat × Nat)} (hv : ∀ t, Visits E (links t)) (rnd s : Nat → Rat) {acts : Dict Nat Rat}
    (hs : ∀ x, x < n → acts.get? x = some (s x)) (t u : Nat) :
    ∃ g', fungalTopology cl ca links rnd ⟨ofMG g, acts, t⟩ u = .ok (⟨ofMG g, .fresh (ofMG g')⟩, (fGrow (arcs g) s rnd u (links t)).2) ∧
      Fungal n E g' ∧ arcs g' = arcs g ++ (fGrow (arcs g) s rnd u (links t)).1 := by
  have hl := fungal_labels hg
  have h0 : fAdd g [] = g := by simp [fAdd]
  have hlinks := fLinks_ok hE hg.valid hg.exclusive hl hg.valid rfl rnd s hs (links t) [] u (by simp) (hv t).link
  rw [h0, List.nil_append] at hlinks
  have hrange : ∀ p ∈ (fGrow (arcs g) s rnd u (links t)).1, p.1 ∈ g.labels ∧ p.2 ∈ g.labels := by
    intro p hp
    obtain ⟨l, hm, h1, _⟩ := fGrow_mem hp
    have hL := (hv t).link l hm
    have g1 : l.1 < n := hE.range _ _ hL
    have g2 : l.2 < n := hE.range _ _ (hE.symm _ _ hL)
    rw [hl]
    simp only [List.mem_range]
    rcases h1 with rfl | rfl
    · exact ⟨g1, g2⟩
    · exact ⟨g2, g1⟩
  have hval := fAdd_valid hg.valid hrange
  have hplain : Plain (fAdd g (fGrow (arcs g) s rnd u (links t)).1) := by
    intro e he
    rcases List.mem_append.1 he with he | he
    · exact fungal_plain hg e he
    · obtain ⟨p, _, rfl⟩ := List.mem_map.1 he
      exact Or.inl rfl
  have hperm := edges_perm hval
  obtain ⟨g', h1, h2, h3, h4, h5, h6, h7⟩ := fWeights_ok (ofMG (fAdd g (fGrow (arcs g) s rnd u (links t)).1)).edges hval hplain (by
    intro e he
    obtain ⟨e', he', rfl⟩ := List.mem_map.1 (hperm.mem_iff.1 he)
    exact List.mem_map.2 ⟨e', he', rfl⟩)
  refine ⟨g', ?_, ⟨h2, h5.trans hg.nodes, h6.trans hg.rot, ?_, ?_⟩, ?_⟩
  · unfold fungalTopology
    simp only
    rw [fungal_copy hg hcl hca]
    simp only
    rw [hlinks]
    simp only
    rw [h1]
  · rw [h4, arcs_fAdd]
    exact fExclusive hE hg.exclusive (hv t) s rnd u
  · intro e he
    rw [h4]
    refine h7 (fun _ => False) (by simp) e he (Or.inr ?_)
    have : (e.src, e.dst) ∈ arcs g' := List.mem_map.2 ⟨e, he, rfl⟩
    rw [h4] at this
    obtain ⟨e', he', h⟩ := List.mem_map.1 this
    simp only [Prod.mk.injEq] at h
    refine ⟨e'.attr, hperm.mem_iff.2 (List.mem_map.2 ⟨e', he', ?_⟩)⟩
    rw [h.1, h.2]
  · rw [h4, arcs_fAdd]

/-! ## The activity rule -/

theorem firsts_sub {A : Type} (es : List (Edge Nat A)) : ∀ e ∈ firsts es, e ∈ es := by
  induction es with
  | nil => intro e he; cases he
  | cons x es ih =>
    intro e he
    rcases List.mem_cons.1 he with rfl | he
    · simp
    · exact List.mem_cons_of_mem _ (ih e ((List.mem_filter.1 he).1))

theorem sources_firsts {A : Type} (es : List (Edge Nat A)) (x : Nat) :
    sources es x = ((firsts es).filter (fun e => decide (e.dst = x))).map Edge.src := by
  unfold sources
  induction es with
  | nil => rfl
  | cons e es ih =>
    by_cases h : e.dst = x
    · rw [List.filter_cons_of_pos (by simpa using h), List.map_cons]
      simp only [dedup, firsts]
      rw [List.filter_cons_of_pos (by simpa using h), List.map_cons, ih, List.filter_map, List.filter_filter, List.filter_filter]
      congr 2
      apply List.filter_congr
      intro f _
      by_cases h2 : f.dst = x <;> simp [Function.comp, h2, h]
    · rw [List.filter_cons_of_neg (by simpa using h)]
      simp only [firsts]
      rw [List.filter_cons_of_neg (by simpa using h), ih, List.filter_filter]
      congr 1
      apply List.filter_congr
      intro f _
      by_cases h2 : f.dst = x
      · have : ¬ x = e.dst := fun h' => h h'.symm
        simp [h2, this]
      · simp [h2]

theorem between_firsts {A : Type} (es : List (Edge Nat A)) : ∀ f ∈ firsts es, (between es f.src f.dst)[0]? = some f.attr := by
  induction es with
  | nil => intro f hf; cases hf
  | cons e es ih =>
    intro f hf
    rw [between_cons]
    rcases List.mem_cons.1 hf with rfl | hf
    · simp
    · rw [List.mem_filter] at hf
      have h : ¬ (f.src = e.src ∧ f.dst = e.dst) := of_decide_eq_true hf.2
      rw [if_neg (fun h' => h ⟨h'.1.symm, h'.2.symm⟩), List.nil_append]
      exact ih f hf.1

theorem fAdds_ok {I : Type} {ctx : NodeCtx Nat Rat Rat I} {s : Nat → Rat} (fs : List (Edge Nat Rat))
    (h : ∀ f ∈ fs, ∃ as, ctx.connections.get? f.src = some as ∧ as[0]? = some f.attr)
    (hw : ∀ f ∈ fs, (f.attr.get? "weight").isSome) (ha : ∀ f ∈ fs, ctx.activities.get? f.src = some (s f.src)) : ∀ s0 : Rat,
    (fs.map Edge.src).foldlM (fungalAdd ctx) s0 = .ok (s0 + (fs.map (sent s)).sum) := by
  induction fs with
  | nil => intro s0; simp [pure, Except.pure, Rat.add_zero]
  | cons f fs ih =>
    intro s0
    obtain ⟨as, h1, h2⟩ := h f (by simp)
    obtain ⟨w, h3⟩ := Option.isSome_iff_exists.1 (hw f (by simp))
    have h4 := ha f (by simp)
    have hstep : fungalAdd ctx s0 f.src = .ok (s0 + w * s f.src) := by
      unfold fungalAdd
      rw [Dict.get_eq_ok_iff.2 h1]
      simp only
      rw [h2]
      simp only
      rw [Dict.get_eq_ok_iff.2 h3]
      simp only
      rw [Dict.get_eq_ok_iff.2 h4]
    rw [List.map_cons, List.foldlM_cons, hstep]
    refine (ih (fun f hf => h f (by simp [hf])) (fun f hf => hw f (by simp [hf])) (fun f hf => ha f (by simp [hf])) _).trans ?_
    have : sent s f = w * s f.src := by simp [sent, weight, h3]
    rw [List.map_cons, List.sum_cons, this, Rat.add_assoc]

theorem inCount_zero_iff {A : Type} (es : List (Edge Nat A)) (x : Nat) : inCount es x = 0 ↔ sources es x = [] := by
  unfold inCount
  rw [List.length_eq_zero_iff, List.eq_nil_iff_forall_not_mem, List.eq_nil_iff_forall_not_mem]
  simp only [mem_sources, List.mem_filter, decide_eq_true_eq]
  constructor
  · rintro h i ⟨e, h1, _, h2⟩; exact h e ⟨h1, h2⟩
  · rintro h e ⟨h1, h2⟩; exact h e.src ⟨e, h1, rfl, h2⟩

theorem pyGet_nat {α : Type} {l : List α} {i : Nat} (h : i < l.length) : pyGet l (i : Int) = .ok l[i] := by
  unfold pyGet pyIndex
  simp [h]

theorem fRule_ok {I : Type} {RE : Rat} {layer : List Rat} {g : MG Nat Rat} (hg : g.Valid)
    (hw : ∀ e ∈ g.edges, (e.attr.get? "weight").isSome) {ctx : NodeCtx Nat Rat Rat I} {s : Nat → Rat}
    (hact : ∀ x ∈ g.labels, ctx.activities.get? x = some (s x)) (hl : ctx.node < layer.length)
    (hn : ctx.neighbours = sources g.edges ctx.node) (hc : ctx.connections = incomingOf g.edges ctx.node)
    (hcur : ctx.current = s ctx.node) :
    fungalRule RE layer ctx = .ok (nextIn RE (fun x => (layer[x]?).getD 0) g s ctx.node) := by
  unfold fungalRule nextIn
  have hmem : ∀ f ∈ (firsts g.edges).filter (fun e => decide (e.dst = ctx.node)), f ∈ firsts g.edges ∧ f.dst = ctx.node := by
    intro f hf
    simpa [List.mem_filter] using hf
  rw [hn, sources_firsts, fAdds_ok (s := s) _ ?_ ?_ ?_]
  · simp only
    rw [pyGet_nat hl, hcur]
    simp only [List.getElem?_eq_getElem hl, Option.getD_some]
    have hz : inCount g.edges ctx.node = 0 ↔ (firsts g.edges).filter (fun e => decide (e.dst = ctx.node)) = [] := by
      rw [inCount_zero_iff, sources_firsts, List.map_eq_nil_iff]
    congr 2
    · by_cases h : inCount g.edges ctx.node = 0
      · rw [if_pos h, hz.1 h]
        simp [Rat.add_zero]
      · rw [if_neg h]
        have h2 : ¬ (firsts g.edges).filter (fun e => decide (e.dst = ctx.node)) = [] := fun h' => h (hz.2 h')
        rw [if_pos (by rw [List.length_map]; exact List.length_pos_iff.2 h2), Rat.zero_add]
    · by_cases h : s ctx.node > 0
      · rw [if_pos h, if_pos h, Rat.mul_one]
      · rw [if_neg h, if_neg h, Rat.mul_zero, Rat.zero_mul]
  · intro f hf
    obtain ⟨h1, h2⟩ := hmem f hf
    refine ⟨between g.edges f.src ctx.node, ?_, ?_⟩
    · rw [hc, get?_incomingOf, if_pos (mem_sources.2 ⟨f, firsts_sub _ f h1, rfl, h2⟩)]
    · rw [← h2]; exact between_firsts _ f h1
  · intro f hf; exact hw f (firsts_sub _ f (hmem f hf).1)
  · intro f hf; exact hact _ (hg.closed f (firsts_sub _ f (hmem f hf).1)).1

/-! ## Sums -/

theorem total_add (n : Nat) (f h : Nat → Rat) : total n (fun x => f x + h x) = total n f + total n h := by
  unfold total
  induction List.range n with
  | nil => simp [Rat.add_zero]
  | cons a l ih => simp only [List.map_cons, List.sum_cons, ih]; grind

theorem total_congr {n : Nat} {f h : Nat → Rat} (e : ∀ x, x < n → f x = h x) : total n f = total n h := by
  unfold total
  congr 1
  apply List.map_congr_left
  intro x hx
  exact e x (by simpa using hx)

theorem total_succ (n : Nat) (f : Nat → Rat) : total (n + 1) f = total n f + f n := by
  unfold total
  rw [List.range_succ, List.map_append, List.sum_append]
  simp [Rat.add_zero]

theorem total_zero (n : Nat) : total n (fun _ => 0) = 0 := by
  induction n with
  | zero => rfl
  | succ n ih => rw [total_succ, ih, Rat.add_zero]

theorem total_single (n : Nat) (y : Nat) (c : Rat) (h : y < n) : total n (fun x => if y = x then c else 0) = c := by
  induction n with
  | zero => omega
  | succ n ih =>
    rw [total_succ]
    by_cases hy : y = n
    · subst hy
      have : total y (fun x => if y = x then c else 0) = total y (fun _ => 0) := total_congr (fun x hx => if_neg (by omega))
      rw [this, total_zero]
      simp [Rat.zero_add]
    · rw [ih (by omega), if_neg hy, Rat.add_zero]

/-- Summing over the classes of a list is summing over the list. -/
theorem total_fibres {β : Type} (n : Nat) (key : β → Nat) (φ : β → Rat) (l : List β) (h : ∀ b ∈ l, key b < n) :
    total n (fun x => ((l.filter (fun b => decide (key b = x))).map φ).sum) = (l.map φ).sum := by
  induction l with
  | nil => simp [total_zero]
  | cons b l ih =>
    have e : total n (fun x => (((b :: l).filter (fun b => decide (key b = x))).map φ).sum) =
        total n (fun x => (if key b = x then φ b else 0) + ((l.filter (fun b => decide (key b = x))).map φ).sum) := by
      apply total_congr
      intro x _
      by_cases hx : key b = x
      · simp [hx]
      · simp [hx, Rat.zero_add]
    rw [e, total_add, total_single n _ _ (h b (by simp)), ih (fun c hc => h c (by simp [hc]))]
    simp

/-- The sum of the resources after a timestep. -/
theorem total_nextIn {n : Nat} {g : MG Nat Rat} (hg : g.Valid) (hn : g.labels = List.range n) (RE : Rat) (layer s : Nat → Rat) :
    total n (nextIn RE layer g s) = ((firsts g.edges).map (sent s)).sum + total n (fun x => if inCount g.edges x = 0 then s x else 0)
      + total n (fun x => if 0 < s x then RE * layer x else 0) := by
  unfold nextIn
  rw [total_add]
  congr 1
  rw [← total_fibres n Edge.dst (sent s) (firsts g.edges), ← total_add]
  · apply total_congr
    intro x _
    by_cases h : inCount g.edges x = 0
    · have hz : (firsts g.edges).filter (fun e => decide (e.dst = x)) = [] := by
        have := (inCount_zero_iff _ _).1 h
        rw [sources_firsts, List.map_eq_nil_iff] at this
        exact this
      rw [if_pos h, if_pos h, hz]
      simp [Rat.zero_add]
    · rw [if_neg h, if_neg h, Rat.add_zero]
  · intro e he
    have := (hg.closed e (firsts_sub _ e he)).2
    rw [hn] at this
    simpa using this

/-! ## Exclusive and weighted networks -/

theorem firsts_of_nodup {A : Type} (es : List (Edge Nat A)) (h : (es.map (fun e => (e.src, e.dst))).Nodup) : firsts es = es := by
  induction es with
  | nil => rfl
  | cons e es ih =>
    rw [List.map_cons, List.nodup_cons] at h
    simp only [firsts, ih h.2]
    congr 1
    rw [List.filter_eq_self]
    intro f hf
    simp only [decide_eq_true_eq]
    intro h'
    apply h.1
    refine List.mem_map.2 ⟨f, hf, ?_⟩
    rw [h'.1, h'.2]

theorem exclusive_nodup {E : Nat → Nat → Prop} {as : List (Nat × Nat)} (h : Exclusive E as) : as.Nodup :=
  h.once.imp (fun h he => h (Or.inl he))

theorem fungal_firsts {n : Nat} {E : Nat → Nat → Prop} {g : MG Nat Rat} (h : Fungal n E g) : firsts g.edges = g.edges :=
  firsts_of_nodup _ (exclusive_nodup h.exclusive)

theorem fungal_weight {n : Nat} {E : Nat → Nat → Prop} {g : MG Nat Rat} (h : Fungal n E g) {e : Edge Nat Rat} (he : e ∈ g.edges) :
    e.attr.get? "weight" = some (1 / (Spec.outDegree (arcs g) e.src : Rat)) := by
  rw [h.weighted e he]; rfl

theorem fungal_sent {n : Nat} {E : Nat → Nat → Prop} {g : MG Nat Rat} (h : Fungal n E g) {e : Edge Nat Rat} (he : e ∈ g.edges)
    (s : Nat → Rat) : sent s e = s e.src / (Spec.outDegree (arcs g) e.src : Rat) := by
  unfold sent weight
  rw [fungal_weight h he]
  simp only [Option.getD_some]
  rw [Rat.div_def, Rat.div_def]; grind

theorem nextIn_eq {n : Nat} {E : Nat → Nat → Prop} {g : MG Nat Rat} (h : Fungal n E g) (RE : Rat) (layer s : Nat → Rat) (x : Nat) :
    nextIn RE layer g s x = Spec.next RE layer (arcs g) s x := by
  unfold nextIn Spec.next
  congr 1
  have e1 : (arcs g).filter (fun p => decide (p.2 = x)) = ((g.edges.filter (fun e => decide (e.dst = x))).map (fun e => (e.src, e.dst))) := by
    unfold arcs
    rw [List.filter_map]
    rfl
  rw [e1]
  by_cases h0 : inCount g.edges x = 0
  · rw [if_pos h0, if_pos (by rw [List.map_eq_nil_iff]; exact List.length_eq_zero_iff.1 h0)]
  · rw [if_neg h0, if_neg (by rw [List.map_eq_nil_iff]; exact fun h' => h0 (List.length_eq_zero_iff.2 h')), fungal_firsts h, List.map_map]
    congr 1
    apply List.map_congr_left
    intro e he
    exact fungal_sent h ((List.mem_filter.1 he).1) s

theorem sum_map_const {β : Type} (l : List β) (c : Rat) : (l.map (fun _ => c)).sum = (l.length : Rat) * c := by
  induction l with
  | nil => simp [Rat.zero_mul]
  | cons b l ih =>
    rw [List.map_cons, List.sum_cons, ih, List.length_cons]
    have : ((l.length + 1 : Nat) : Rat) = (l.length : Rat) + 1 := by simp
    rw [this]; grind

/-- A node sends all it has, if it has outgoing edges. -/
theorem fungal_out {n : Nat} {E : Nat → Nat → Prop} {g : MG Nat Rat} (h : Fungal n E g) (s : Nat → Rat) (x : Nat)
    (hx : 0 < Spec.outDegree (arcs g) x) : ((g.edges.filter (fun e => decide (e.src = x))).map (sent s)).sum = s x := by
  have e : (g.edges.filter (fun e => decide (e.src = x))).map (sent s) =
      (g.edges.filter (fun e => decide (e.src = x))).map (fun _ => s x / (Spec.outDegree (arcs g) x : Rat)) := by
    apply List.map_congr_left
    intro e he
    have h1 := List.mem_filter.1 he
    rw [fungal_sent h h1.1]
    have : e.src = x := by simpa using h1.2
    rw [this]
  have hl : (g.edges.filter (fun e => decide (e.src = x))).length = Spec.outDegree (arcs g) x := fOut_eq g x
  rw [e, sum_map_const, hl]
  have h0 : (Spec.outDegree (arcs g) x : Rat) ≠ 0 := by
    intro h'
    have : Spec.outDegree (arcs g) x = 0 := by exact_mod_cast h'
    omega
  grind

theorem fungal_sent_total {n : Nat} {E : Nat → Nat → Prop} {g : MG Nat Rat} (h : Fungal n E g) (s : Nat → Rat) :
    (g.edges.map (sent s)).sum = total n (fun x => if 0 < Spec.outDegree (arcs g) x then s x else 0) := by
  rw [← total_fibres n Edge.src (sent s) g.edges]
  · apply total_congr
    intro x _
    by_cases hx : 0 < Spec.outDegree (arcs g) x
    · rw [if_pos hx, fungal_out h s x hx]
    · rw [if_neg hx]
      have : g.edges.filter (fun e => decide (e.src = x)) = [] := by
        apply List.length_eq_zero_iff.1
        have : (g.edges.filter (fun e => decide (e.src = x))).length = Spec.outDegree (arcs g) x := fOut_eq g x
        omega
      rw [this]; rfl
  · intro e he
    have := (h.valid.closed e he).1
    rw [fungal_labels h] at this
    simpa using this

/-! ## A timestep -/

theorem mapE_map {α β : Type} {f : α → Except Err β} {h : α → β} (l : List α) (e : ∀ x ∈ l, f x = .ok (h x)) : mapE f l = .ok (l.map h) :=
  mapE_ok_iff.2 (by rw [List.map_map]; exact (List.map_congr_left e).symm)

/-- The activities after a timestep in any network without rotation system. -/
theorem fActs_ok {I κ : Type} [DecidableEq κ] {cfg : Config Nat Rat Rat I Nat κ} {RE : Rat} {layer : List Rat}
    (hrule : cfg.rule = some (pureRule (fungalRule RE layer))) (hpert : cfg.perturbation = none) (hm : cfg.memoize = false)
    {g : MG Nat Rat} {n : Nat} (hg : g.Valid) (hn : g.labels = List.range n) (hr : g.rot = none)
    (hw : ∀ e ∈ g.edges, (e.attr.get? "weight").isSome) (hl : layer.length = n) {acts : Dict Nat Rat} {s : Nat → Rat}
    (hs : ∀ x, x < n → acts.get? x = some (s x)) (ks : KeySpec Nat Rat Rat I κ) (t : Nat)
    (past : Option (List (Option (Dict Nat Rat)))) {nmap : Option (Dict Nat (List Nat))} (hnm : NmapOk nmap (ofMG g))
    (memo : Memo Rat κ) (u : Nat) :
    computeActs cfg ks t .timestep acts (ofMG g) past nmap memo u =
      .ok ⟨(List.range n).map (fun x => (x, nextIn RE (fun x => (layer[x]?).getD 0) g s x)), [], [], memo, u⟩ := by
  have hact : ∀ x ∈ g.labels, acts.get? x = some (s x) := by
    intro x hx; rw [hn] at hx; exact hs x (by simpa using hx)
  have hval : ∀ x ∈ (ofMG g).labels, nodeVal cfg (fungalRule RE layer) none t .timestep acts (ofMG g) past nmap x =
      .ok (nextIn RE (fun x => (layer[x]?).getD 0) g s x) := by
    intro x hx
    rw [labels_ofMG] at hx
    obtain ⟨a, _, h2⟩ := get?_ofMG_of_mem hx
    obtain ⟨vs, hvs⟩ : ∃ vs : List Rat, vs.map some = (sources g.edges x).map acts.get? := by
      refine ⟨(sources g.edges x).map s, ?_⟩
      rw [List.map_map]
      apply List.map_congr_left
      intro i hi
      exact (hact i (mem_labels_of_mem_sources hg hi).1).symm
    have hctx : mkCtx cfg t .timestep acts (ofMG g) past nmap x =
        .ok ⟨x, t, acts, sources g.edges x, vs, incomingOf g.edges x, s x, past, none⟩ := by
      rw [mkCtx_ok_iff hnm]
      refine ⟨rfl, rfl, rfl, ?_, hvs, ?_, hact x hx, rfl, rfl⟩
      · unfold specNbrs
        have : (ofMG g).rotation = none := hr
        rw [this]
        simp only [h2, Option.map_some, nodeOf, keys_incomingOf]
      · rw [h2]; rfl
    unfold nodeVal
    rw [hctx]
    simp only
    rw [fRule_ok hg hw (s := s) hact (by rw [hl]; rw [hn] at hx; simpa using hx) rfl rfl rfl]
  rw [computeActs_pure (P := none) hrule hpert hm ks t .timestep acts (ofMG g) (by rw [labels_ofMG]; exact hg.nodup),
    mapE_map _ hval]
  simp only
  rw [labels_ofMG, hn]
  congr 2
  generalize List.range n = l
  induction l with
  | nil => rfl
  | cons x l ih => simp [ih]

end Verif
