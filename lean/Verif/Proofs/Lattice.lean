import Verif.Model.Lattice
import Verif.Spec.Lattice
import Verif.Proofs.Families
/-! # Lemmas on lattices -/

namespace Verif
open Spec MG

theorem gridCells_append (a b : List Nat) : gridCells (a ++ b) = gridCells a * gridCells b := by
  induction a with
  | nil => simp [gridCells]
  | cons d ds ih => simp [gridCells, ih, Nat.mul_assoc]

theorem gridCells_singleton (d : Nat) : gridCells [d] = d := by simp [gridCells]

theorem gridCells_split {dim : List Nat} {i : Nat} (hi : i < dim.length) :
    gridCells dim = gridCells (dim.take i) * (dim.getD i 1 * gridCells (dim.drop (i + 1))) := by
  have h : dim = dim.take i ++ (dim[i] :: dim.drop (i + 1)) := by
    rw [List.getElem_cons_drop, List.take_append_drop]
  have h2 : dim.getD i 1 = dim[i] := by simp [List.getD_eq_getElem?_getD, hi]
  rw [h2]
  conv => lhs; rw [h]
  rw [gridCells_append]; rfl

theorem coord_lt {dim : List Nat} {i x : Nat} (hi : i < dim.length) (hx : x < gridCells dim) : coord dim i x < dim.getD i 1 := by
  apply Nat.mod_lt
  rcases Nat.eq_zero_or_pos (dim.getD i 1) with h | h
  · rw [gridCells_split hi, h] at hx; simp at hx
  · exact h

/-- The coordinates in the lower dimensions are those of the remainder. -/
theorem coord_append_low {pre : List Nat} {d i x : Nat} (hi : i < pre.length) :
    coord (pre ++ [d]) i x = coord pre i (x % gridCells pre) := by
  unfold coord
  have h1 : (pre ++ [d]).take i = pre.take i := by
    rw [List.take_append_of_le_length (by omega)]
  have h2 : (pre ++ [d]).getD i 1 = pre.getD i 1 := by
    simp [List.getD_eq_getElem?_getD, List.getElem?_append_left hi]
  rw [h1, h2, gridCells_split hi, Nat.mod_mul_right_div_self, Nat.mod_mul_right_mod]

theorem coord_append_top {pre : List Nat} {d x : Nat} (hx : x < gridCells (pre ++ [d])) :
    coord (pre ++ [d]) pre.length x = x / gridCells pre := by
  unfold coord
  rw [List.take_append_of_le_length (Nat.le_refl _), List.take_length]
  have : (pre ++ [d]).getD pre.length 1 = d := by simp [List.getD_eq_getElem?_getD]
  rw [this]
  rw [gridCells_append, gridCells_singleton] at hx
  exact Nat.mod_eq_of_lt (Nat.div_lt_of_lt_mul hx)

/-- A node is determined by its coordinates. -/
theorem coord_inj {dim : List Nat} {x y : Nat} (hx : x < gridCells dim) (hy : y < gridCells dim)
    (h : ∀ j, j < dim.length → coord dim j x = coord dim j y) : x = y := by
  have key : ∀ n (dim : List Nat), dim.length = n → ∀ x y, x < gridCells dim → y < gridCells dim →
      (∀ j, j < dim.length → coord dim j x = coord dim j y) → x = y := by
    intro n
    induction n with
    | zero =>
      intro dim hl x y hx hy _
      have : dim = [] := List.eq_nil_of_length_eq_zero hl
      subst this
      simp [gridCells] at hx hy
      omega
    | succ n ih =>
      intro dim hl x y hx hy h
      have hne : dim ≠ [] := by rintro rfl; simp at hl
      obtain ⟨pre, d, rfl⟩ : ∃ pre d, dim = pre ++ [d] := ⟨dim.dropLast, dim.getLast hne, (List.dropLast_concat_getLast hne).symm⟩
      simp at hl
      have hp : 0 < gridCells pre := by
        rcases Nat.eq_zero_or_pos (gridCells pre) with h0 | h0
        · rw [gridCells_append, h0] at hx; simp at hx
        · exact h0
      have e1 : x / gridCells pre = y / gridCells pre := by
        have := h pre.length (by simp)
        rwa [coord_append_top hx, coord_append_top hy] at this
      have e2 : x % gridCells pre = y % gridCells pre := by
        apply ih pre hl _ _ (Nat.mod_lt _ hp) (Nat.mod_lt _ hp)
        intro j hj
        have := h j (by simp; omega)
        rwa [coord_append_low hj, coord_append_low hj] at this
      rw [← Nat.div_add_mod x (gridCells pre), ← Nat.div_add_mod y (gridCells pre), e1, e2]
  exact key _ dim rfl x y hx hy h

/-- Links in one more dimension. -/
theorem gridLink_append {per : Bool} {pre : List Nat} {d x y : Nat} (hp : 0 < gridCells pre) :
    GridLink per (pre ++ [d]) x y ↔ x / gridCells pre < d ∧ y / gridCells pre < d ∧
      ((x % gridCells pre = y % gridCells pre ∧ Near per d (x / gridCells pre) (y / gridCells pre)) ∨
        (x / gridCells pre = y / gridCells pre ∧ GridLink per pre (x % gridCells pre) (y % gridCells pre))) := by
  have hlt : ∀ z, z < gridCells (pre ++ [d]) ↔ z / gridCells pre < d := by
    intro z
    rw [gridCells_append, gridCells_singleton, Nat.div_lt_iff_lt_mul hp, Nat.mul_comm]
  have hm : ∀ z, z % gridCells pre < gridCells pre := fun z => Nat.mod_lt _ hp
  have hlen : (pre ++ [d]).length = pre.length + 1 := by simp
  have hd : (pre ++ [d]).getD pre.length 1 = d := by simp [List.getD_eq_getElem?_getD]
  constructor
  · rintro ⟨hx, hy, i, hi, hj, hn⟩
    refine ⟨(hlt x).1 hx, (hlt y).1 hy, ?_⟩
    rw [hlen] at hi hj
    by_cases he : i = pre.length
    · subst he
      refine Or.inl ⟨?_, ?_⟩
      · apply coord_inj (hm x) (hm y)
        intro j hj'
        have := hj j (by omega) (by omega)
        rwa [coord_append_low hj', coord_append_low hj'] at this
      · rwa [hd, coord_append_top hx, coord_append_top hy] at hn
    · have hi' : i < pre.length := by omega
      refine Or.inr ⟨?_, hm x, hm y, i, hi', ?_, ?_⟩
      · have := hj pre.length (by omega) (Ne.symm he)
        rwa [coord_append_top hx, coord_append_top hy] at this
      · intro j hj' hne
        have := hj j (by omega) hne
        rwa [coord_append_low hj', coord_append_low hj'] at this
      · rw [coord_append_low hi', coord_append_low hi'] at hn
        have : (pre ++ [d]).getD i 1 = pre.getD i 1 := by
          simp [List.getD_eq_getElem?_getD, List.getElem?_append_left hi']
        rwa [this] at hn
  · rintro ⟨hx, hy, h⟩
    have hx' := (hlt x).2 hx
    have hy' := (hlt y).2 hy
    refine ⟨hx', hy', ?_⟩
    rcases h with ⟨h1, h2⟩ | ⟨h1, _, _, i, hi, hj, hn⟩
    · refine ⟨pre.length, by simp, ?_, ?_⟩
      · intro j hj hne
        rw [hlen] at hj
        rw [coord_append_low (by omega), coord_append_low (by omega), h1]
      · rw [hd, coord_append_top hx', coord_append_top hy']; exact h2
    · refine ⟨i, by simp; omega, ?_, ?_⟩
      · intro j hj' hne
        rw [hlen] at hj'
        by_cases he : j = pre.length
        · subst he
          rw [coord_append_top hx', coord_append_top hy', h1]
        · rw [coord_append_low (by omega), coord_append_low (by omega)]
          exact hj j (by omega) hne
      · have : (pre ++ [d]).getD i 1 = pre.getD i 1 := by
          simp [List.getD_eq_getElem?_getD, List.getElem?_append_left hi]
        rw [this, coord_append_low hi, coord_append_low hi]
        exact hn

theorem near_symm {per : Bool} {d a b : Nat} : Near per d a b ↔ Near per d b a := by
  unfold Near
  constructor
  · rintro (h | h | ⟨h, h'⟩)
    · exact Or.inr (Or.inl h)
    · exact Or.inl h
    · exact Or.inr (Or.inr ⟨h, h'.symm⟩)
  · rintro (h | h | ⟨h, h'⟩)
    · exact Or.inr (Or.inl h)
    · exact Or.inl h
    · exact Or.inr (Or.inr ⟨h, h'.symm⟩)

theorem gridLink_symm {per : Bool} {dim : List Nat} {x y : Nat} (h : GridLink per dim x y) : GridLink per dim y x := by
  obtain ⟨h1, h2, i, h3, h4, h5⟩ := h
  exact ⟨h2, h1, i, h3, fun j hj hne => (h4 j hj hne).symm, near_symm.1 h5⟩

/-- What `grid_graph` has computed for the dimensions `dim`. -/
structure IsGrid (per : Bool) (dim : List Nat) (G : GridGraph) : Prop where
  size : G.size = gridCells dim
  link : ∀ x y, ((x, y) ∈ G.edges ∨ (y, x) ∈ G.edges) ↔ GridLink per dim x y

theorem lineGraph_ok {per : Bool} {d : Nat} (h : ¬ (per = true ∧ d = 0)) :
    ∃ G, lineGraph per d = .ok G ∧ G.size = d ∧
      ∀ a b, ((a, b) ∈ G.edges ∨ (b, a) ∈ G.edges) ↔ (a < d ∧ b < d ∧ Near per d a b) := by
  unfold lineGraph
  cases per with
  | true =>
    have hd : d ≠ 0 := fun e => h ⟨rfl, e⟩
    refine ⟨⟨d, _⟩, by rw [if_pos rfl, if_neg hd], rfl, ?_⟩
    intro a b
    simp only [List.mem_append, List.mem_map, List.mem_range, Prod.mk.injEq, List.mem_singleton, Near]
    constructor
    · rintro ((⟨i, hi, h1, h2⟩ | ⟨h1, h2⟩) | (⟨i, hi, h1, h2⟩ | ⟨h1, h2⟩)) <;> (refine ⟨by omega, by omega, ?_⟩)
      · left; omega
      · right; right; refine ⟨trivial, ?_⟩; omega
      · right; left; omega
      · right; right; refine ⟨trivial, ?_⟩; omega
    · rintro ⟨ha, hb, h1 | h1 | ⟨-, h1 | h1⟩⟩
      · exact Or.inl (Or.inl ⟨a, by omega, rfl, h1⟩)
      · exact Or.inr (Or.inl ⟨b, by omega, rfl, h1⟩)
      · exact Or.inr (Or.inr (by omega))
      · exact Or.inl (Or.inr (by omega))
  | false =>
    refine ⟨⟨d, _⟩, by rw [if_neg (by simp)], rfl, ?_⟩
    intro a b
    simp only [List.mem_map, List.mem_range, Prod.mk.injEq, Near]
    constructor
    · rintro (⟨i, hi, h1, h2⟩ | ⟨i, hi, h1, h2⟩) <;> (refine ⟨by omega, by omega, ?_⟩)
      · left; omega
      · right; left; omega
    · rintro ⟨ha, hb, h1 | h1 | ⟨h1, -⟩⟩
      · exact Or.inl ⟨a, by omega, rfl, h1⟩
      · exact Or.inr ⟨b, by omega, rfl, h1⟩
      · cases h1

theorem div_mod_of {N u w : Nat} (hw : w < N) : (u * N + w) / N = u ∧ (u * N + w) % N = w := by
  constructor
  · rw [Nat.mul_comm, Nat.mul_add_div (by omega), Nat.div_eq_of_lt hw, Nat.add_zero]
  · rw [Nat.mul_comm, Nat.mul_add_mod, Nat.mod_eq_of_lt hw]

theorem mem_gridProduct {L H : GridGraph} {x y : Nat} (hH : ∀ a b, (a, b) ∈ H.edges → a < H.size ∧ b < H.size)
    (hp : 0 < H.size) :
    (x, y) ∈ (gridProduct L H).edges ↔
      ((x / H.size, y / H.size) ∈ L.edges ∧ x % H.size = y % H.size) ∨
      (x / H.size < L.size ∧ x / H.size = y / H.size ∧ (x % H.size, y % H.size) ∈ H.edges) := by
  simp only [gridProduct, List.mem_append, List.mem_flatMap, List.mem_map, List.mem_range, Prod.mk.injEq, Prod.exists]
  constructor
  · rintro (⟨u, v, he, w, hw, rfl, rfl⟩ | ⟨u, hu, a, b, he, rfl, rfl⟩)
    · left
      rw [(div_mod_of hw).1, (div_mod_of hw).2, (div_mod_of hw).1, (div_mod_of hw).2]
      exact ⟨he, rfl⟩
    · right
      obtain ⟨ha, hb⟩ := hH a b he
      rw [(div_mod_of ha).1, (div_mod_of ha).2, (div_mod_of hb).1, (div_mod_of hb).2]
      exact ⟨hu, rfl, he⟩
  · rintro (⟨he, hw⟩ | ⟨hu, hxy, he⟩)
    · left
      refine ⟨_, _, he, x % H.size, Nat.mod_lt _ hp, ?_, ?_⟩
      · rw [Nat.mul_comm]; exact Nat.div_add_mod x H.size
      · rw [hw, Nat.mul_comm]; exact Nat.div_add_mod y H.size
    · right
      refine ⟨x / H.size, hu, _, _, he, ?_, ?_⟩
      · rw [Nat.mul_comm]; exact Nat.div_add_mod x H.size
      · rw [hxy, Nat.mul_comm]; exact Nat.div_add_mod y H.size

theorem IsGrid.bounds {per : Bool} {dim : List Nat} {G : GridGraph} (h : IsGrid per dim G) {a b : Nat}
    (he : (a, b) ∈ G.edges) : a < G.size ∧ b < G.size := by
  obtain ⟨h1, h2, _⟩ := (h.link a b).1 (Or.inl he)
  rw [h.size]; exact ⟨h1, h2⟩

theorem gridStep_ok {per : Bool} {pre : List Nat} {G : GridGraph} {d : Nat} (hG : IsGrid per pre G)
    (h : ¬ (per = true ∧ d = 0)) : ∃ G', gridStep per G d = .ok G' ∧ IsGrid per (pre ++ [d]) G' := by
  obtain ⟨L, hL, hs, hl⟩ := lineGraph_ok h
  refine ⟨gridProduct L G, by unfold gridStep; rw [hL], ?_, ?_⟩
  · show L.size * G.size = _
    rw [hs, hG.size, gridCells_append, gridCells_singleton, Nat.mul_comm]
  · intro x y
    have hLb : ∀ a b, (a, b) ∈ L.edges → a < L.size ∧ b < L.size := by
      intro a b he
      have := (hl a b).1 (Or.inl he)
      rw [hs]; exact ⟨this.1, this.2.1⟩
    rcases Nat.eq_zero_or_pos (gridCells pre) with h0 | h0
    · have hgs : G.size = 0 := by rw [hG.size, h0]
      have hge : ∀ a b, (a, b) ∉ G.edges := fun a b he => by
        have := (hG.bounds he).1
        omega
      have hnil : (gridProduct L G).edges = [] := by
        have hge' : G.edges = [] := by
          cases hh : G.edges with
          | nil => rfl
          | cons p ps => exact absurd (by rw [hh]; exact List.mem_cons_self ..) (hge p.1 p.2)
        simp [gridProduct, hgs, hge']
      rw [hnil]
      constructor
      · rintro (h | h) <;> cases h
      · rintro ⟨hx, _⟩
        rw [gridCells_append, h0] at hx
        simp at hx
    · rw [gridLink_append h0, mem_gridProduct (fun a b => hG.bounds) (by rw [hG.size]; exact h0),
        mem_gridProduct (fun a b => hG.bounds) (by rw [hG.size]; exact h0), hG.size, hs]
      constructor
      · rintro ((⟨he, hw⟩ | ⟨hu, hxy, he⟩) | (⟨he, hw⟩ | ⟨hu, hxy, he⟩))
        · obtain ⟨h1, h2, h3⟩ := (hl _ _).1 (Or.inl he)
          exact ⟨h1, h2, Or.inl ⟨hw, h3⟩⟩
        · exact ⟨hu, by omega, Or.inr ⟨hxy, (hG.link _ _).1 (Or.inl he)⟩⟩
        · obtain ⟨h1, h2, h3⟩ := (hl _ _).1 (Or.inr he)
          exact ⟨h1, h2, Or.inl ⟨hw.symm, h3⟩⟩
        · exact ⟨by omega, hu, Or.inr ⟨hxy.symm, (hG.link _ _).1 (Or.inr he)⟩⟩
      · rintro ⟨hx, hy, ⟨hw, hn⟩ | ⟨hxy, hg⟩⟩
        · rcases (hl _ _).2 ⟨hx, hy, hn⟩ with he | he
          · exact Or.inl (Or.inl ⟨he, hw⟩)
          · exact Or.inr (Or.inl ⟨he, hw.symm⟩)
        · rcases (hG.link _ _).2 hg with he | he
          · exact Or.inl (Or.inr ⟨hx, hxy, he⟩)
          · exact Or.inr (Or.inr ⟨hy, hxy.symm, he⟩)

theorem gridFold_ok {per : Bool} (ds : List Nat) {pre : List Nat} {G : GridGraph} (hG : IsGrid per pre G)
    (h : ∀ d ∈ ds, ¬ (per = true ∧ d = 0)) : ∃ G', ds.foldlM (gridStep per) G = .ok G' ∧ IsGrid per (pre ++ ds) G' := by
  induction ds generalizing pre G with
  | nil => exact ⟨G, rfl, by simpa using hG⟩
  | cons d ds ih =>
    obtain ⟨G1, h1, h2⟩ := gridStep_ok hG (h d (by simp))
    obtain ⟨G2, h3, h4⟩ := ih h2 (fun d' hd' => h d' (by simp [hd']))
    refine ⟨G2, ?_, by simpa using h4⟩
    rw [List.foldlM_cons, h1]
    exact h3

/-- `grid_graph` has the links of the lattice. -/
theorem gridGraph_ok {per : Bool} {dim : List Nat} (h : ∀ d ∈ dim, ¬ (per = true ∧ d = 0)) :
    ∃ G, gridGraph per dim = .ok G ∧ ∀ x y, ((x, y) ∈ G.edges ∨ (y, x) ∈ G.edges) ↔ GridLink per dim x y := by
  cases dim with
  | nil =>
    refine ⟨⟨0, []⟩, rfl, ?_⟩
    intro x y
    constructor
    · rintro (h | h) <;> cases h
    · rintro ⟨_, _, i, hi, _⟩
      simp at hi
  | cons d ds =>
    obtain ⟨L, h1, h2, h3⟩ := lineGraph_ok (h d (by simp))
    have hL : IsGrid per [d] L := by
      refine ⟨by rw [h2, gridCells_singleton], ?_⟩
      intro x y
      rw [h3, show ([d] : List Nat) = [] ++ [d] from rfl, gridLink_append (by simp [gridCells])]
      simp only [gridCells, Nat.div_one, Nat.mod_one, true_and]
      constructor
      · rintro ⟨a, b, c⟩; exact ⟨a, b, Or.inl c⟩
      · rintro ⟨a, b, c | ⟨_, _, _, i, hi, _⟩⟩
        · exact ⟨a, b, c⟩
        · simp at hi
    obtain ⟨G, h4, h5⟩ := gridFold_ok ds hL (fun d' hd' => h d' (by simp [hd']))
    refine ⟨G, ?_, h5.link⟩
    show (match lineGraph per d with
      | .error e => Except.error e
      | .ok line => ds.foldlM (gridStep per) line) = _
    rw [h1]
    exact h4

theorem gridFold_error (ds : List Nat) (G : GridGraph) (h : 0 ∈ ds) :
    ds.foldlM (gridStep true) G = .error .indexError := by
  induction ds generalizing G with
  | nil => simp at h
  | cons d ds ih =>
    rw [List.foldlM_cons]
    by_cases hd : d = 0
    · subst hd; rfl
    · obtain ⟨L, h1, _, _⟩ := lineGraph_ok (per := true) (d := d) (fun h => hd h.2)
      have : gridStep true G d = .ok (gridProduct L G) := by unfold gridStep; rw [h1]
      rw [this]
      exact ih _ (by simpa [Ne.symm hd] using h)

/-- `grid_graph` raises for a periodic dimension of size 0. -/
theorem gridGraph_error {dim : List Nat} (h : 0 ∈ dim) : gridGraph true dim = .error .indexError := by
  cases dim with
  | nil => simp at h
  | cons d ds =>
    show (match lineGraph true d with
      | .error e => Except.error e
      | .ok line => ds.foldlM (gridStep true) line) = _
    by_cases hd : d = 0
    · subst hd; rfl
    · obtain ⟨L, h1, _, _⟩ := lineGraph_ok (per := true) (d := d) (fun h => hd h.2)
      rw [h1]
      exact gridFold_error ds L (by simpa [Ne.symm hd] using h)

/-! ## The network -/

/-- The edges added for a list of links. -/
def latticeEdges {A : Type} (selfLoops : Bool) (first : Int) (es : List (Nat × Nat)) : List (Edge Int A) :=
  (es.filter (fun e => !(decide (e.1 = e.2) && !selfLoops))).flatMap (fun e =>
    [⟨first + e.2, first + e.1, []⟩, ⟨first + e.1, first + e.2, []⟩])

theorem lattice_fold {A : Type} {sl : Bool} {first : Int} (es : List (Nat × Nat)) {g : MG Int A} (hg : g.Valid) :
    ∃ g' : MG Int A, NetM.forEach es (latticeStep sl first) (ofMG g) = (.ok (), ofMG g') ∧ g'.Valid ∧
      g'.edges = g.edges ++ latticeEdges sl first es ∧ g'.rot = g.rot ∧
      (∀ x, x ∈ g'.labels ↔ x ∈ g.labels ∨ ∃ e ∈ (latticeEdges sl first es : List (Edge Int A)), x = e.src ∨ x = e.dst) := by
  induction es generalizing g with
  | nil => exact ⟨g, rfl, hg, by simp [latticeEdges], rfl, by simp [latticeEdges]⟩
  | cons p es ih =>
    by_cases hp : p.1 = p.2 ∧ sl = false
    · obtain ⟨g', h1, h2, h3, h4, h5⟩ := ih hg
      have hle : (latticeEdges sl first (p :: es) : List (Edge Int A)) = latticeEdges sl first es := by
        simp [latticeEdges, hp.1, hp.2]
      refine ⟨g', ?_, h2, by rw [hle]; exact h3, h4, by rw [hle]; exact h5⟩
      have : latticeStep sl first p (ofMG g) = (.ok (), ofMG g) := by
        unfold latticeStep; rw [if_pos hp]; rfl
      exact (NetM.bind_ok this).trans h1
    · obtain ⟨a1, a2⟩ := exec_ofMG hg (Net.Op.addEdge (first + p.2) (first + p.1) [])
      simp only [Net.exec, MG.exec] at a1 a2
      obtain ⟨b1, b2⟩ := exec_ofMG a2 (Net.Op.addEdge (first + p.1) (first + p.2) [])
      simp only [Net.exec, MG.exec] at b1 b2
      obtain ⟨g', h1, h2, h3, h4, h5⟩ := ih b2
      have hle : (latticeEdges sl first (p :: es) : List (Edge Int A)) =
          [⟨first + p.2, first + p.1, []⟩, ⟨first + p.1, first + p.2, []⟩] ++ latticeEdges sl first es := by
        unfold latticeEdges
        rw [List.filter_cons_of_pos, List.flatMap_cons]
        simp only [Bool.not_eq_true', Bool.and_eq_false_iff, decide_eq_false_iff_not, Bool.not_eq_false']
        by_cases hh : p.1 = p.2
        · right
          cases sl with
          | true => rfl
          | false => exact absurd ⟨hh, rfl⟩ hp
        · exact Or.inl hh
      refine ⟨g', ?_, h2, ?_, ?_, ?_⟩
      · have : latticeStep sl first p (ofMG g) = (.ok (), ofMG (addEdge (addEdge g (first + p.2) (first + p.1) []) (first + p.1) (first + p.2) [])) := by
          unfold latticeStep; rw [if_neg hp]
          exact (NetM.bind_ok a1).trans b1
        exact (NetM.bind_ok this).trans h1
      · rw [h3, hle]; simp [addEdge]
      · rw [h4]; simp [addEdge, ensure_rot]
      · intro x
        rw [h5, hle, mem_labels_addEdge', mem_labels_addEdge']
        simp only [List.cons_append, List.nil_append, List.mem_cons, exists_eq_or_imp]
        constructor
        · rintro ((h | h | h | h | h) | h) <;> simp [h]
        · rintro (h | (h | h) | (h | h) | h) <;> simp [h]

theorem between_lattice_cons {A : Type} {sl : Bool} {first : Int} (p : Nat × Nat) (es : List (Nat × Nat)) (x y : Nat) :
    between (latticeEdges sl first (p :: es) : List (Edge Int A)) (first + x) (first + y) =
      (if p.1 = p.2 ∧ sl = false then [] else
        (if p = (y, x) then [[]] else []) ++ (if p = (x, y) then [[]] else [])) ++
      between (latticeEdges sl first es) (first + x) (first + y) := by
  obtain ⟨u, v⟩ := p
  by_cases hp : u = v ∧ sl = false
  · rw [if_pos hp]
    have : (latticeEdges sl first ((u, v) :: es) : List (Edge Int A)) = latticeEdges sl first es := by
      simp [latticeEdges, hp.1, hp.2]
    rw [this]; rfl
  · rw [if_neg hp]
    have hle : (latticeEdges sl first ((u, v) :: es) : List (Edge Int A)) =
        [⟨first + v, first + u, []⟩] ++ [⟨first + u, first + v, []⟩] ++ latticeEdges sl first es := by
      unfold latticeEdges
      rw [List.filter_cons_of_pos, List.flatMap_cons]
      · rfl
      · simp only [Bool.not_eq_true', Bool.and_eq_false_iff, decide_eq_false_iff_not, Bool.not_eq_false']
        by_cases hh : u = v
        · right
          cases sl with
          | true => rfl
          | false => exact absurd ⟨hh, rfl⟩ hp
        · exact Or.inl hh
    rw [hle, between_append, between_append, between_singleton, between_singleton]
    have e : ∀ a b : Nat, (first + (a : Int) = first + (b : Int)) ↔ a = b := by omega
    simp only [Prod.mk.injEq, e]
    congr 1
    congr 1
    by_cases h1 : v = x <;> by_cases h2 : u = y <;> simp [h1, h2]

theorem between_lattice_none {A : Type} {sl : Bool} {first : Int} {es : List (Nat × Nat)} {x y : Nat}
    (h1 : (x, y) ∉ es) (h2 : (y, x) ∉ es) :
    between (latticeEdges sl first es : List (Edge Int A)) (first + x) (first + y) = [] := by
  induction es with
  | nil => rfl
  | cons p es ih =>
    simp only [List.mem_cons, not_or] at h1 h2
    have e1 : ¬ p = (x, y) := fun h => h1.1 h.symm
    have e2 : ¬ p = (y, x) := fun h => h2.1 h.symm
    rw [between_lattice_cons, if_neg e1, if_neg e2, ih h1.2 h2.2]
    simp

theorem not_mem_of_once {p : Nat × Nat} {es : List (Nat × Nat)} (h : ∀ q ∈ es, ¬ SameLink p q) :
    p ∉ es ∧ (p.2, p.1) ∉ es :=
  ⟨fun hm => h _ hm (Or.inl rfl), fun hm => h _ hm (Or.inr rfl)⟩

/-- A listed link carries one edge each way, or two loops. -/
theorem between_lattice_some {A : Type} {sl : Bool} {first : Int} {es : List (Nat × Nat)} {x y : Nat}
    (hes : es.Pairwise (fun p q => ¬ SameLink p q)) (h : (x, y) ∈ es ∨ (y, x) ∈ es) :
    between (latticeEdges sl first es : List (Edge Int A)) (first + x) (first + y) =
      if x = y then (if sl then [[], []] else []) else [[]] := by
  induction es with
  | nil => simp at h
  | cons p es ih =>
    rw [List.pairwise_cons] at hes
    rw [between_lattice_cons]
    obtain ⟨n1, n2⟩ := not_mem_of_once hes.1
    by_cases e1 : p = (x, y)
    · subst e1
      rw [between_lattice_none n1 n2]
      by_cases hxy : x = y
      · subst hxy
        cases sl <;> simp
      · have : ¬ ((x, y) = (y, x)) := fun h => hxy (Prod.mk.inj h).1
        simp [hxy, this]
    · by_cases e2 : p = (y, x)
      · subst e2
        rw [between_lattice_none n2 n1]
        have hxy : x ≠ y := by rintro rfl; exact e1 rfl
        have : ¬ ((y, x) = (x, y)) := e1
        simp [hxy, Ne.symm hxy]
      · have h' : (x, y) ∈ es ∨ (y, x) ∈ es := by
          rcases h with h | h
          · rcases List.mem_cons.1 h with h | h
            · exact absurd h.symm e1
            · exact Or.inl h
          · rcases List.mem_cons.1 h with h | h
            · exact absurd h.symm e2
            · exact Or.inr h
        rw [ih hes.2 h', if_neg e1, if_neg e2]
        simp

theorem mem_latticeEdges {A : Type} {sl : Bool} {first : Int} {es : List (Nat × Nat)} {e : Edge Int A} :
    e ∈ latticeEdges sl first es ↔ ∃ p ∈ es, (p.1 ≠ p.2 ∨ sl = true) ∧
      (e = ⟨first + p.2, first + p.1, []⟩ ∨ e = ⟨first + p.1, first + p.2, []⟩) := by
  unfold latticeEdges
  simp only [List.mem_flatMap, List.mem_filter, List.mem_cons, List.not_mem_nil, or_false, and_assoc]
  constructor
  · rintro ⟨p, hp, hq, h⟩
    refine ⟨p, hp, ?_, h⟩
    by_cases hh : p.1 = p.2
    · cases sl with
      | true => exact Or.inr rfl
      | false => simp [hh] at hq
    · exact Or.inl hh
  · rintro ⟨p, hp, hq, h⟩
    refine ⟨p, hp, ?_, h⟩
    rcases hq with hq | hq <;> simp [hq]

/-- `lattice` in terms of the links. -/
theorem lattice_ok {A : Type} {enum : List (Nat × Nat) → List (Nat × Nat)} {dim : List Nat} {per sl : Bool} {first : Int}
    (hd : ∀ d ∈ dim, ¬ (per = true ∧ d = 0))
    (hen : ∀ G, gridGraph per dim = .ok G → SameEdges G.edges (enum G.edges)) :
    ∃ g : MG Int A, lattice enum dim per sl first = .ok (ofMG g) ∧ g.Valid ∧ g.rot = none ∧
      (∀ a : Int, a ∈ g.labels ↔ ∃ x y, a = first + (x : Nat) ∧ GridLink per dim x y ∧ (x ≠ y ∨ sl = true)) ∧
      (∀ e ∈ g.edges, ∃ x y : Nat, e.src = first + x ∧ e.dst = first + y) ∧
      (∀ x y, GridLink per dim x y →
        between g.edges (first + x) (first + y) = if x = y then (if sl then [[], []] else []) else [[]]) ∧
      (∀ x y : Nat, ¬ GridLink per dim x y → between g.edges (first + x) (first + y) = []) := by
  obtain ⟨G, hG, hl⟩ := gridGraph_ok hd
  obtain ⟨h1, h2⟩ := hen G hG
  obtain ⟨g, a1, a2, a3, a4, a5⟩ := lattice_fold (A := A) (sl := sl) (first := first) (enum G.edges) valid_empty
  have hE : g.edges = latticeEdges sl first (enum G.edges) := by simpa [MG.empty] using a3
  refine ⟨g, ?_, a2, a4, ?_, ?_, ?_, ?_⟩
  · unfold lattice
    rw [hG]
    have : NetM.forEach (enum G.edges) (latticeStep sl first) (Net.empty : Net Int A) = (.ok (), ofMG g) := a1
    simp only [this]
  · intro a
    rw [a5]
    simp only [MG.empty, MG.labels, List.map_nil, List.not_mem_nil, false_or]
    constructor
    · rintro ⟨e, he, h⟩
      obtain ⟨⟨u, v⟩, hp, hq, he⟩ := mem_latticeEdges.1 he
      have hg := (hl u v).1 ((h1 u v).1 (Or.inl hp))
      rcases he with rfl | rfl <;> rcases h with h | h
      · exact ⟨v, u, h, gridLink_symm hg, hq.imp Ne.symm id⟩
      · exact ⟨u, v, h, hg, hq⟩
      · exact ⟨u, v, h, hg, hq⟩
      · exact ⟨v, u, h, gridLink_symm hg, hq.imp Ne.symm id⟩
    · rintro ⟨x, y, h, hg, hq⟩
      rcases (h1 x y).2 ((hl x y).2 hg) with hp | hp
      · exact ⟨_, mem_latticeEdges.2 ⟨(x, y), hp, hq, Or.inr rfl⟩, Or.inl h⟩
      · exact ⟨_, mem_latticeEdges.2 ⟨(y, x), hp, hq.imp Ne.symm id, Or.inl rfl⟩, Or.inl h⟩
  · intro e he
    rw [hE] at he
    obtain ⟨⟨u, v⟩, -, -, rfl | rfl⟩ := mem_latticeEdges.1 he
    · exact ⟨v, u, rfl, rfl⟩
    · exact ⟨u, v, rfl, rfl⟩
  · intro x y h
    rw [hE]
    exact between_lattice_some h2 ((h1 x y).2 ((hl x y).2 h))
  · intro x y h
    rw [hE]
    apply between_lattice_none
    · exact fun hm => h ((hl x y).1 ((h1 x y).1 (Or.inl hm)))
    · exact fun hm => h ((hl x y).1 ((h1 x y).1 (Or.inr hm)))

theorem lattice_error {A : Type} {enum : List (Nat × Nat) → List (Nat × Nat)} {dim : List Nat} {sl : Bool} {first : Int}
    (h : 0 ∈ dim) : (lattice enum dim true sl first : Except Err (Net Int A)) = .error .indexError := by
  unfold lattice
  rw [gridGraph_error h]

/-- A node is linked to itself only around a dimension of size 1. -/
theorem gridLink_self {per : Bool} {dim : List Nat} {x : Nat} :
    GridLink per dim x x ↔ x < gridCells dim ∧ per = true ∧ 1 ∈ dim := by
  constructor
  · rintro ⟨hx, _, i, hi, _, hn⟩
    refine ⟨hx, ?_⟩
    rcases hn with h | h | ⟨h, h' | h'⟩
    · omega
    · omega
    all_goals
      refine ⟨h, ?_⟩
      have : dim.getD i 1 = 1 := by omega
      have h2 : dim.getD i 1 = dim[i] := by simp [List.getD_eq_getElem?_getD, hi]
      rw [← this, h2]
      exact List.getElem_mem hi
  · rintro ⟨hx, hp, hm⟩
    obtain ⟨i, hi, he⟩ := List.mem_iff_getElem.1 hm
    have h2 : dim.getD i 1 = 1 := by simp [List.getD_eq_getElem?_getD, hi, he]
    have h3 := coord_lt hi hx
    refine ⟨hx, hx, i, hi, fun _ _ _ => rfl, Or.inr (Or.inr ⟨hp, Or.inl ?_⟩)⟩
    omega

/-- In a periodic lattice with dimensions of size at least 3 a node has two links per dimension. -/
theorem gridLink_count {dim : List Nat} (hd : ∀ d ∈ dim, 3 ≤ d) {x : Nat} (hx : x < gridCells dim) :
    ∃ l : List Nat, l.Nodup ∧ (∀ y, y ∈ l ↔ GridLink true dim x y) ∧ l.length = 2 * dim.length := by
  have key : ∀ n (dim : List Nat), dim.length = n → (∀ d ∈ dim, 3 ≤ d) → ∀ x, x < gridCells dim →
      ∃ l : List Nat, l.Nodup ∧ (∀ y, y ∈ l ↔ GridLink true dim x y) ∧ l.length = 2 * dim.length := by
    intro n
    induction n with
    | zero =>
      intro dim hl _ x _
      have : dim = [] := List.eq_nil_of_length_eq_zero hl
      subst this
      refine ⟨[], by simp, ?_, rfl⟩
      intro y
      simp [GridLink]
    | succ n ih =>
      intro dim hl hd x hx
      have hne : dim ≠ [] := by rintro rfl; simp at hl
      obtain ⟨pre, d, rfl⟩ : ∃ pre d, dim = pre ++ [d] :=
        ⟨dim.dropLast, dim.getLast hne, (List.dropLast_concat_getLast hne).symm⟩
      simp at hl
      have hd3 : 3 ≤ d := hd d (by simp)
      have hp : 0 < gridCells pre := by
        rcases Nat.eq_zero_or_pos (gridCells pre) with h0 | h0
        · rw [gridCells_append, h0] at hx; simp at hx
        · exact h0
      have hq : x / gridCells pre < d := by
        rw [gridCells_append, gridCells_singleton] at hx
        exact Nat.div_lt_of_lt_mul hx
      obtain ⟨l, l1, l2, l3⟩ := ih pre hl (fun d' hd' => hd d' (by simp [hd'])) (x % gridCells pre) (Nat.mod_lt _ hp)
      generalize hN : gridCells pre = N at *
      generalize hqq : x / N = q at *
      generalize hrr : x % N = r at *
      have hr : r < N := hrr ▸ Nat.mod_lt _ hp
      have hlN : ∀ y ∈ l, y < N := fun y hy => by
        have := ((l2 y).1 hy).2.1
        omega
      let up := if q + 1 = d then 0 else q + 1
      let dn := if q = 0 then d - 1 else q - 1
      have hud : up ≠ dn := by simp only [up, dn]; split <;> split <;> omega
      have huq : up ≠ q := by simp only [up]; split <;> omega
      have hdq : dn ≠ q := by simp only [dn]; split <;> omega
      have hup : up < d := by simp only [up]; split <;> omega
      have hdn : dn < d := by simp only [dn]; split <;> omega
      have hnear : ∀ b, b < d → (Near true d q b ↔ b = up ∨ b = dn) := by
        intro b hb
        simp only [Near, up, dn, true_and]
        split <;> split <;> omega
      refine ⟨[up * N + r, dn * N + r] ++ l.map (fun z => q * N + z), ?_, ?_, ?_⟩
      · rw [List.nodup_append]
        refine ⟨?_, ?_, ?_⟩
        · simp only [List.nodup_cons, List.mem_singleton, List.not_mem_nil, not_false_eq_true, List.nodup_nil, and_true]
          intro h
          apply hud
          have := congrArg (· / N) h
          simpa [(div_mod_of hr).1] using this
        · exact List.Pairwise.map _ (fun a b hab h => hab (by omega)) l1
        · rintro a ha b hb rfl
          obtain ⟨z, hz, hza⟩ := List.mem_map.1 hb
          have hz1 : a / N = q := by rw [← hza, (div_mod_of (hlN z hz)).1]
          rcases List.mem_cons.1 ha with rfl | ha
          · rw [(div_mod_of hr).1] at hz1; exact huq hz1
          · rw [List.mem_singleton.1 ha, (div_mod_of hr).1] at hz1; exact hdq hz1
      · intro y
        rw [gridLink_append (by omega), hN, hqq, hrr]
        simp only [List.cons_append, List.nil_append, List.mem_cons, List.mem_map]
        constructor
        · rintro (rfl | rfl | ⟨z, hz, rfl⟩)
          · rw [(div_mod_of hr).1, (div_mod_of hr).2]
            exact ⟨hq, hup, Or.inl ⟨rfl, (hnear _ hup).2 (Or.inl rfl)⟩⟩
          · rw [(div_mod_of hr).1, (div_mod_of hr).2]
            exact ⟨hq, hdn, Or.inl ⟨rfl, (hnear _ hdn).2 (Or.inr rfl)⟩⟩
          · rw [(div_mod_of (hlN z hz)).1, (div_mod_of (hlN z hz)).2]
            exact ⟨hq, hq, Or.inr ⟨rfl, (l2 z).1 hz⟩⟩
        · have hy : y / N * N + y % N = y := by rw [Nat.mul_comm]; exact Nat.div_add_mod y N
          rintro ⟨_, hyd, ⟨h1, h2⟩ | ⟨h1, h2⟩⟩
          · rcases (hnear _ hyd).1 h2 with h | h
            · left; rw [← h, h1, hy]
            · right; left; rw [← h, h1, hy]
          · right; right
            exact ⟨y % N, (l2 _).2 h2, by rw [h1, hy]⟩
      · simp [l3]; omega
  exact key _ dim rfl hd x hx

end Verif
