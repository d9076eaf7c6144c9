import Verif.Model.Wolfram
import Verif.Proofs.NetworkQueries
import Verif.Proofs.NetworkX
import Verif.Proofs.Digits
/-! # Lemmas about `_init_network_and_conditions` and `network_to_config` -/

namespace Verif

/-! ## Strings of numbers -/

theorem digitsLE_value {k : Nat} (hk : 2 ≤ k) : ∀ (f n : Nat), n ≤ f → (digitsLE k f n).foldr (fun d v => d + k * v) 0 = n := by
  intro f
  induction f with
  | zero => intro n h; simp [digitsLE]; omega
  | succ f ih =>
    intro n h
    by_cases h0 : n = 0
    · subst h0; simp [digitsLE_zero]
    · rw [digitsLE_pos h0, List.foldr_cons, ih]
      · exact Nat.mod_add_div n k
      · have : n / k < n := Nat.div_lt_self (by omega) (by omega)
        omega

theorem digitsBE_value {k : Nat} (hk : 2 ≤ k) (n : Nat) : (digitsBE k n).reverse.foldr (fun d v => d + k * v) 0 = n := by
  unfold digitsBE
  split
  · rename_i h; simp [h]
  · rw [List.reverse_reverse]; exact digitsLE_value hk n n (Nat.le_refl _)

theorem wMap_inj_on {α β : Type} {f : α → β} {P : α → Prop} (hf : ∀ a b, P a → P b → f a = f b → a = b) :
    ∀ (l m : List α), (∀ a ∈ l, P a) → (∀ a ∈ m, P a) → l.map f = m.map f → l = m
  | [], [], _, _, _ => rfl
  | [], _ :: _, _, _, h => by simp at h
  | _ :: _, [], _, _, h => by simp at h
  | a :: l, b :: m, hl, hm, h => by
    simp only [List.map_cons, List.cons.injEq] at h
    rw [hf a b (hl a (List.mem_cons_self ..)) (hm b (List.mem_cons_self ..)) h.1,
      wMap_inj_on hf l m (fun a h => hl a (List.mem_cons_of_mem _ h)) (fun a h => hm a (List.mem_cons_of_mem _ h)) h.2]

/-- Different natural numbers are written differently. -/
theorem strInt_nat_inj {m n : Nat} (h : strInt (m : Int) = strInt (n : Int)) : m = n := by
  unfold strInt at h
  rw [if_neg (by omega), if_neg (by omega)] at h
  simp only [Int.natAbs_natCast] at h
  have := wMap_inj_on (P := fun d => d < 10) (fun a b ha hb => digitChar_inj (by omega) (by omega)) _ _
    (fun a ha => digitsBE_lt (by omega) ha) (fun a ha => digitsBE_lt (by omega) ha) h
  rw [← digitsBE_value (k := 10) (by omega) m, this, digitsBE_value (by omega)]

/-- The label of the relation at position `c`. -/
def wLabel (c : Nat) : List Char := strInt ((c : Int) + 1)

theorem wLabel_inj {c d : Nat} (h : wLabel c = wLabel d) : c = d := by
  unfold wLabel at h
  have := strInt_nat_inj (m := c + 1) (n := d + 1) (by simpa using h)
  omega

/-! ## Building the network -/

/-- What one edge says. -/
inductive WPart where
  | unary (l : List Char) (x : Int)
  | pair (l : List Char) (x y : Int)
  | part (l : List Char) (x y : Int) (k : Nat)

/-- The edge. -/
def WPart.triple : WPart → Int × Int × Attr WVal
  | .unary l x => (x, x, [("label", .str l), ("unary", .flag true)])
  | .pair l x y => (x, y, [("label", .str l)])
  | .part l x y k => (x, y, [("label", .str l), ("hyperedge_index", .num k)])

/-- The edges of a path. -/
def pathParts (l : List Char) (hyper : Bool) : Option Int → Nat → List Int → List WPart
  | _, _, [] => []
  | none, k, x :: xs => pathParts l hyper (some x) k xs
  | some p, k, x :: xs => (if hyper then .part l p x k else .pair l p x) :: pathParts l hyper (some x) (k + 1) xs

/-- The edges of a relation. -/
def relParts (p : List Int × Nat) : List WPart :=
  pathParts (wLabel p.2) (decide (2 < p.1.length)) none 0 p.1 ++
    (match p.1 with
    | [x] => [.unary (wLabel p.2) x]
    | _ => [])

abbrev edgeTriple (e : Edge Int WVal) : Int × Int × Attr WVal := (e.src, e.dst, e.attr)

theorem edges_addEdge_triple (g : MG Int WVal) (x y : Int) (a : Attr WVal) :
    (MG.addEdge g x y a).edges.map edgeTriple = g.edges.map edgeTriple ++ [(x, y, a)] := by
  simp [MG.addEdge, edgeTriple]

theorem rot_addEdge (g : MG Int WVal) (x y : Int) (a : Attr WVal) : (MG.addEdge g x y a).rot = g.rot := by
  unfold MG.addEdge MG.ensure
  split <;> split <;> rfl

theorem wPath_ofMG (l : List Char) (hyper : Bool) (xs : List Int) : ∀ (prev : Option Int) (k : Nat) (g : MG Int WVal), g.Valid →
    ∃ g' : MG Int WVal, (g'.Valid ∧ g'.rot = g.rot) ∧ wPath l hyper prev k xs (ofMG g) = (.ok (), ofMG g') ∧
      g'.edges.map edgeTriple = g.edges.map edgeTriple ++ (pathParts l hyper prev k xs).map WPart.triple := by
  induction xs with
  | nil =>
    intro prev k g hg
    refine ⟨g, ⟨hg, rfl⟩, ?_, ?_⟩
    · cases prev <;> rfl
    · cases prev <;> simp [pathParts]
  | cons x xs ih =>
    intro prev k g hg
    cases prev with
    | none => exact ih (some x) k g hg
    | some p =>
      obtain ⟨g', h1, h2, h3⟩ := ih (some x) (k + 1) (MG.addEdge g p x (wAttr l hyper k)) (valid_addEdge hg p x _)
      refine ⟨g', ⟨h1.1, h1.2.trans (rot_addEdge ..)⟩, ?_, ?_⟩
      · exact (NetM.bind_ok (addEdge_ofMG hg p x _)).trans h2
      · rw [h3, edges_addEdge_triple, pathParts, List.map_cons, List.append_assoc]
        congr 2
        cases hyper <;> rfl

theorem wRelation_ofMG (p : List Int × Nat) {g : MG Int WVal} (hg : g.Valid) :
    ∃ g' : MG Int WVal, (g'.Valid ∧ g'.rot = g.rot) ∧ wRelation p (ofMG g) = (.ok (), ofMG g') ∧
      g'.edges.map edgeTriple = g.edges.map edgeTriple ++ (relParts p).map WPart.triple := by
  obtain ⟨r, c⟩ := p
  obtain ⟨g1, h1, h2, h3⟩ := wPath_ofMG (wLabel c) (decide (2 < r.length)) r none 0 g hg
  have hb : ∀ k : Unit → NetM Int WVal Unit, NetM.bind (wPath (strInt ((c : Int) + 1)) (decide (2 < r.length)) none 0 r) k (ofMG g) = k () (ofMG g1) :=
    fun k => NetM.bind_ok h2
  rcases r with _ | ⟨x, _ | ⟨y, r⟩⟩
  · exact ⟨g1, h1, hb (fun _ => NetM.pure ()), by rw [h3]; simp [relParts]⟩
  · refine ⟨MG.addEdge g1 x x _, ⟨valid_addEdge h1.1 x x [("label", .str (strInt ((c : Int) + 1))), ("unary", .flag true)],
      (rot_addEdge ..).trans h1.2⟩, ?_, ?_⟩
    · exact (hb (fun _ => Net.addEdge x x _)).trans (addEdge_ofMG h1.1 x x _)
    · rw [edges_addEdge_triple, h3]
      simp [relParts, WPart.triple, wLabel]
  · exact ⟨g1, h1, hb (fun _ => NetM.pure ()), by rw [h3]; simp [relParts]⟩

theorem wRelations_ofMG : ∀ (ps : List (List Int × Nat)) (g : MG Int WVal), g.Valid →
    ∃ g' : MG Int WVal, (g'.Valid ∧ g'.rot = g.rot) ∧ NetM.forEach ps wRelation (ofMG g) = (.ok (), ofMG g') ∧
      g'.edges.map edgeTriple = g.edges.map edgeTriple ++ (ps.flatMap relParts).map WPart.triple := by
  intro ps
  induction ps with
  | nil => intro g hg; exact ⟨g, ⟨hg, rfl⟩, rfl, by simp⟩
  | cons p ps ih =>
    intro g hg
    obtain ⟨g1, h1, h2, h3⟩ := wRelation_ofMG p hg
    obtain ⟨g2, k1, k2, k3⟩ := ih g1 h1.1
    refine ⟨g2, ⟨k1.1, k1.2.trans h1.2⟩, ?_, ?_⟩
    · exact (NetM.bind_ok (f := fun _ => NetM.forEach ps wRelation) h2).trans k2
    · rw [k3, h3]; simp

/-- The network of a configuration. -/
theorem wInit_ofMG (config : List (List Int)) : ∃ g : MG Int WVal, (g.Valid ∧ g.rot = none) ∧ (wInit config).1 = ofMG g ∧
    NetM.forEach config.zipIdx wRelation Net.empty = (.ok (), ofMG g) ∧
    g.edges.map edgeTriple = (config.zipIdx.flatMap relParts).map WPart.triple := by
  obtain ⟨g, h1, h2, h3⟩ := wRelations_ofMG config.zipIdx MG.empty valid_empty
  rw [ofMG_empty] at h2
  refine ⟨g, h1, ?_, h2, ?_⟩
  · unfold wInit; rw [h2]
  · rw [h3]; simp [MG.empty]

/-! ## Collecting the edges -/

/-- Reads an edge. -/
def wDecode (e : Int × Int × Attr WVal) : Option WPart :=
  match e.2.2 with
  | [("label", .str l)] => some (.pair l e.1 e.2.1)
  | [("label", .str l), (a, v)] =>
    if a = "unary" then some (.unary l e.1)
    else match v with
      | .num k => some (.part l e.1 e.2.1 k)
      | _ => none
  | _ => none

theorem wDecode_triple (p : WPart) : wDecode p.triple = some p := by
  cases p <;> rfl

/-- A permutation of the edges comes from a permutation of what they say. -/
theorem perm_triples {E : List (Int × Int × Attr WVal)} {ps : List WPart} (h : E.Perm (ps.map WPart.triple)) :
    ∃ qs : List WPart, qs.Perm ps ∧ E = qs.map WPart.triple := by
  refine ⟨E.filterMap wDecode, ?_, ?_⟩
  · refine (h.filterMap wDecode).trans (List.Perm.of_eq ?_)
    rw [List.filterMap_map]
    have : wDecode ∘ WPart.triple = some := funext wDecode_triple
    rw [this, List.filterMap_some]
  · have hm : ∀ e ∈ E, ∃ p : WPart, p.triple = e := by
      intro e he
      have := h.mem_iff.1 he
      obtain ⟨p, _, hp⟩ := List.mem_map.1 this
      exact ⟨p, hp⟩
    clear h
    induction E with
    | nil => rfl
    | cons e E ih =>
      obtain ⟨p, rfl⟩ := hm e (List.mem_cons_self ..)
      rw [List.filterMap_cons, wDecode_triple]
      simp only [List.map_cons]
      rw [← ih (fun e he => hm e (List.mem_cons_of_mem _ he))]

/-- What collecting does with one edge. -/
def wStep (s : WCollect) : WPart → WCollect
  | .unary l x => { s with edges := s.edges.set l [x] }
  | .pair l x y => { s with edges := s.edges.set l [x, y] }
  | .part l x y k => { s with hyper := s.hyper.set l ((s.hyper.get? l).getD [] ++ [((x, y), k)]) }

theorem wCollect_triple (s : WCollect) (p : WPart) : wCollect s p.triple = .ok (wStep s p) := by
  cases p <;> simp [wCollect, WPart.triple, Dict.get?, Dict.has, wStep]

theorem wCollect_fold : ∀ (ps : List WPart) (s : WCollect), (ps.map WPart.triple).foldlM wCollect s = .ok (ps.foldl wStep s)
  | [], _ => rfl
  | p :: ps, s => by
    rw [List.map_cons, List.foldlM_cons, wCollect_triple]
    exact wCollect_fold ps (wStep s p)

/-- The relation of one or two nodes that an edge with label `l` stands for. -/
def edgeOf (l : List Char) : WPart → Option (List Int)
  | .unary m x => if m = l then some [x] else none
  | .pair m x y => if m = l then some [x, y] else none
  | .part .. => none

/-- The part of a hyperedge with label `l`. -/
def hyperOf (l : List Char) : WPart → Option ((Int × Int) × Nat)
  | .part m x y k => if m = l then some ((x, y), k) else none
  | _ => none

structure CollectInv (ps : List WPart) (s : WCollect) : Prop where
  enodup : s.edges.keys.Nodup
  hnodup : s.hyper.keys.Nodup
  edges : ∀ l, s.edges.get? l = (ps.filterMap (edgeOf l)).getLast?
  hyper : ∀ l, s.hyper.get? l = if ps.filterMap (hyperOf l) = [] then none else some (ps.filterMap (hyperOf l))

theorem collectInv_step {ps : List WPart} {s : WCollect} (h : CollectInv ps s) (p : WPart) : CollectInv (ps ++ [p]) (wStep s p) := by
  cases p with
  | unary m x =>
    refine ⟨Dict.nodup_keys_set h.enodup _ _, h.hnodup, ?_, ?_⟩
    · intro l
      simp only [wStep, Dict.get?_set, List.filterMap_append, h.edges]
      by_cases hl : m = l
      · subst hl; simp [edgeOf]
      · rw [if_neg (fun h => hl h)]; simp [edgeOf, hl]
    · intro l
      simp only [wStep, List.filterMap_append, h.hyper, hyperOf, List.filterMap_cons, List.filterMap_nil, List.append_nil]
  | pair m x y =>
    refine ⟨Dict.nodup_keys_set h.enodup _ _, h.hnodup, ?_, ?_⟩
    · intro l
      simp only [wStep, Dict.get?_set, List.filterMap_append, h.edges]
      by_cases hl : m = l
      · subst hl; simp [edgeOf]
      · rw [if_neg (fun h => hl h)]; simp [edgeOf, hl]
    · intro l
      simp only [wStep, List.filterMap_append, h.hyper, hyperOf, List.filterMap_cons, List.filterMap_nil, List.append_nil]
  | part m x y k =>
    refine ⟨h.enodup, Dict.nodup_keys_set h.hnodup _ _, ?_, ?_⟩
    · intro l
      simp only [wStep, List.filterMap_append, h.edges]
      simp [edgeOf]
    · intro l
      simp only [wStep, Dict.get?_set, List.filterMap_append, h.hyper]
      by_cases hl : m = l
      · subst hl
        simp only [if_pos, hyperOf, List.filterMap_cons, List.filterMap_nil, List.append_eq_nil_iff, List.cons_ne_nil, and_false, if_false]
        split <;> simp_all
      · rw [if_neg hl]; simp [hyperOf, hl]

theorem collectInv_fold : ∀ (qs ps : List WPart) (s : WCollect), CollectInv ps s → CollectInv (ps ++ qs) (qs.foldl wStep s) := by
  intro qs
  induction qs with
  | nil => intro ps s h; simpa using h
  | cons q qs ih =>
    intro ps s h
    have := ih (ps ++ [q]) (wStep s q) (collectInv_step h q)
    simpa using this

/-! ## Merging -/

theorem wMergePart_ok {r merged : List Int} (hlen : merged.length = r.length) {k : Nat} {x y : Int} (hk : r[k]? = some x) (hk' : r[k + 1]? = some y) :
    ∃ m, wMergePart merged ((x, y), k) = .ok m ∧ m.length = r.length ∧
      (∀ i : Nat, i = k ∨ (k + 2 = r.length ∧ i + 1 = r.length) → m[i]? = r[i]?) ∧
      ∀ i : Nat, merged[i]? = r[i]? → m[i]? = r[i]? := by
  obtain ⟨hkl, hx⟩ := List.getElem?_eq_some_iff.1 hk
  obtain ⟨hkl', hy⟩ := List.getElem?_eq_some_iff.1 hk'
  have h1 : ∀ i : Nat, i = k → (merged.set k x)[i]? = r[i]? := by
    rintro i rfl
    rw [List.getElem?_set_self (by omega), hk]
  have h2 : ∀ i : Nat, merged[i]? = r[i]? → (merged.set k x)[i]? = r[i]? := by
    intro i hi
    by_cases hik : i = k
    · exact h1 i hik
    · rw [List.getElem?_set_ne (fun h => hik h.symm), hi]
  unfold wMergePart
  simp only
  rw [if_pos (by omega)]
  by_cases hl : k + 2 = merged.length
  · rw [if_pos hl]
    have hlast : merged.length - 1 = k + 1 := by omega
    have h3 : ∀ i : Nat, i = k + 1 → ((merged.set k x).set (k + 1) y)[i]? = r[i]? := by
      rintro i rfl
      rw [List.getElem?_set_self (by rw [List.length_set]; omega), hk']
    have h4 : ∀ i : Nat, (merged.set k x)[i]? = r[i]? → ((merged.set k x).set (k + 1) y)[i]? = r[i]? := by
      intro i hi
      by_cases hik : i = k + 1
      · exact h3 i hik
      · rw [List.getElem?_set_ne (fun h => hik h.symm), hi]
    refine ⟨_, rfl, by simp [hlen], ?_, ?_⟩
    · rw [hlast]
      intro i hi
      rcases hi with hi | hi
      · exact h4 i (h1 i hi)
      · exact h3 i (by omega)
    · rw [hlast]
      exact fun i hi => h4 i (h2 i hi)
  · rw [if_neg hl]
    refine ⟨_, rfl, by simp [hlen], ?_, h2⟩
    intro i hi
    rcases hi with hi | hi
    · exact h1 i hi
    · omega

/-- The part of the relation `r` that starts at position `k`. -/
def IsPart (r : List Int) (p : (Int × Int) × Nat) : Prop := r[p.2]? = some p.1.1 ∧ r[p.2 + 1]? = some p.1.2

theorem wMergeParts_spec (r : List Int) : ∀ (ps : List ((Int × Int) × Nat)) (merged : List Int), merged.length = r.length →
    (∀ p ∈ ps, IsPart r p) →
    ∃ m, ps.foldlM wMergePart merged = .ok m ∧ m.length = r.length ∧
      (∀ i : Nat, (∃ p ∈ ps, i = p.2 ∨ (p.2 + 2 = r.length ∧ i + 1 = r.length)) → m[i]? = r[i]?) ∧
      ∀ i : Nat, merged[i]? = r[i]? → m[i]? = r[i]? := by
  intro ps
  induction ps with
  | nil => intro merged hl _; exact ⟨merged, rfl, hl, by simp, fun _ h => h⟩
  | cons p ps ih =>
    intro merged hl hp
    have hpp := hp p (List.mem_cons_self ..)
    obtain ⟨m1, a1, a2, a3, a4⟩ := wMergePart_ok hl hpp.1 hpp.2
    obtain ⟨m2, b1, b2, b3, b4⟩ := ih m1 a2 (fun q hq => hp q (List.mem_cons_of_mem _ hq))
    refine ⟨m2, ?_, b2, ?_, fun i hi => b4 i (a4 i hi)⟩
    · rw [List.foldlM_cons, a1]
      exact b1
    · rintro i ⟨q, hq, hi⟩
      rcases List.mem_cons.1 hq with rfl | hq
      · exact b4 i (a3 i hi)
      · exact b3 i ⟨q, hq, hi⟩

/-- The consecutive pairs of a relation, numbered. -/
def pairsOf (r : List Int) : List ((Int × Int) × Nat) := (r.zip r.tail).zipIdx

theorem mem_pairsOf {r : List Int} {p : (Int × Int) × Nat} : p ∈ pairsOf r ↔ IsPart r p := by
  unfold pairsOf IsPart
  rw [List.mem_zipIdx_iff_getElem?, List.getElem?_zip_eq_some, List.getElem?_tail]

theorem length_pairsOf (r : List Int) : (pairsOf r).length = r.length - 1 := by
  simp only [pairsOf, List.length_zipIdx, List.length_zip, List.length_tail]
  omega

theorem wMerge_spec {r : List Int} (hr : 2 < r.length) {ps : List ((Int × Int) × Nat)} (h : ps.Perm (pairsOf r)) : wMerge ps = .ok r := by
  have hl : ps.length + 1 = r.length := by rw [h.length_eq, length_pairsOf]; omega
  obtain ⟨m, h1, h2, h3, _⟩ := wMergeParts_spec r ps (List.replicate (ps.length + 1) 0) (by simp [hl])
    (fun p hp => mem_pairsOf.1 (h.mem_iff.1 hp))
  unfold wMerge
  rw [h1]
  congr 1
  apply List.ext_getElem?
  intro i
  by_cases hi : i < r.length
  · apply h3
    have hk : min i (r.length - 2) + 1 < r.length := by omega
    refine ⟨((r[min i (r.length - 2)], r[min i (r.length - 2) + 1]), min i (r.length - 2)), ?_, ?_⟩
    · exact h.mem_iff.2 (mem_pairsOf.2 ⟨List.getElem?_eq_getElem _, List.getElem?_eq_getElem _⟩)
    · simp only; omega
  · rw [List.getElem?_eq_none (by omega), List.getElem?_eq_none (by omega)]

theorem wMergeAll_spec (f : List Char → List Int) : ∀ (d : Dict (List Char) (List ((Int × Int) × Nat))),
    (∀ p ∈ d, wMerge p.2 = .ok (f p.1)) → wMergeAll d = .ok (d.map (fun p => (p.1, f p.1)))
  | [], _ => rfl
  | (l, ps) :: d, h => by
    unfold wMergeAll
    rw [show wMerge ps = .ok (f l) from h (l, ps) (List.mem_cons_self ..), wMergeAll_spec f d (fun p hp => h p (List.mem_cons_of_mem _ hp))]
    rfl

/-! ## What the edges of a configuration say -/

theorem pathParts_hyper (l : List Char) : ∀ (xs : List Int) (p : Int) (k : Nat),
    pathParts l true (some p) k xs = (((p :: xs).zip xs).zipIdx k).map (fun q => .part l q.1.1 q.1.2 q.2)
  | [], _, _ => rfl
  | x :: xs, p, k => by
    simp only [pathParts, if_true, List.zip_cons_cons, List.zipIdx_cons, List.map_cons]
    rw [pathParts_hyper l xs x (k + 1)]

theorem relParts_hyper {r : List Int} (hr : 2 < r.length) (c : Nat) :
    relParts (r, c) = (pairsOf r).map (fun q => .part (wLabel c) q.1.1 q.1.2 q.2) := by
  rcases r with _ | ⟨x, _ | ⟨y, r⟩⟩
  · simp at hr
  · simp at hr
  · unfold relParts
    simp only [hr, decide_true, List.append_nil]
    rw [pathParts, pathParts_hyper]
    rfl

theorem filterMap_eq_nil_of {α β : Type} {f : α → Option β} {l : List α} (h : ∀ a ∈ l, f a = none) : l.filterMap f = [] := by
  rw [List.filterMap_eq_nil_iff]; exact h

theorem edgeOf_relParts (l : List Char) (r : List Int) (c : Nat) :
    (relParts (r, c)).filterMap (edgeOf l) = if wLabel c = l ∧ r ≠ [] ∧ r.length ≤ 2 then [r] else [] := by
  by_cases hr : 2 < r.length
  · rw [relParts_hyper hr, if_neg (by omega)]
    apply filterMap_eq_nil_of
    intro a ha
    obtain ⟨q, _, rfl⟩ := List.mem_map.1 ha
    rfl
  · rcases r with _ | ⟨x, _ | ⟨y, _ | ⟨z, r⟩⟩⟩
    · simp [relParts, pathParts]
    · by_cases hl : wLabel c = l <;> simp [relParts, pathParts, edgeOf, hl]
    · by_cases hl : wLabel c = l <;> simp [relParts, pathParts, edgeOf, hl]
    · simp at hr

theorem hyperOf_relParts (l : List Char) (r : List Int) (c : Nat) :
    (relParts (r, c)).filterMap (hyperOf l) = if wLabel c = l ∧ 2 < r.length then pairsOf r else [] := by
  by_cases hr : 2 < r.length
  · rw [relParts_hyper hr]
    by_cases hl : wLabel c = l
    · rw [if_pos ⟨hl, hr⟩, List.filterMap_map]
      have : (hyperOf l ∘ fun q : (Int × Int) × Nat => WPart.part (wLabel c) q.1.1 q.1.2 q.2) = some := by
        funext q
        simp [hyperOf, hl]
      rw [this, List.filterMap_some]
    · rw [if_neg (fun h => hl h.1)]
      apply filterMap_eq_nil_of
      intro a ha
      obtain ⟨q, _, rfl⟩ := List.mem_map.1 ha
      simp [hyperOf, hl]
  · rw [if_neg (fun h => hr h.2)]
    rcases r with _ | ⟨x, _ | ⟨y, _ | ⟨z, r⟩⟩⟩
    · simp [relParts, pathParts]
    · simp [relParts, pathParts, hyperOf]
    · simp [relParts, pathParts, hyperOf]
    · simp at hr

theorem flatMap_zipIdx_single {α β : Type} (f : α × Nat → List β) (c : Nat) : ∀ (l : List α) (s : Nat),
    (∀ p ∈ l.zipIdx s, p.2 ≠ c → f p = []) → (l.zipIdx s).flatMap f = if s ≤ c then ((l[c - s]?).elim [] (fun a => f (a, c))) else []
  | [], s, _ => by simp
  | a :: l, s, h => by
    rw [List.zipIdx_cons, List.flatMap_cons,
      flatMap_zipIdx_single f c l (s + 1) (fun p hp => h p (by rw [List.zipIdx_cons]; exact List.mem_cons_of_mem _ hp))]
    have h0 := h (a, s) (by rw [List.zipIdx_cons]; exact List.mem_cons_self ..)
    by_cases hs : s = c
    · subst hs; simp; omega
    · rw [h0 hs]
      by_cases hsc : s ≤ c
      · rw [if_pos (by omega), if_pos hsc]
        obtain ⟨d, hd⟩ : ∃ d, c - s = d + 1 := ⟨c - s - 1, by omega⟩
        rw [hd, List.getElem?_cons_succ, show c - (s + 1) = d by omega]
        rfl
      · rw [if_neg (by omega), if_neg hsc]; rfl

/-- The label belongs to a relation, or to none. -/
theorem label_cases (l : List Char) : (∃ c, wLabel c = l) ∨ ∀ c, wLabel c ≠ l := by
  by_cases h : ∃ c, wLabel c = l
  · exact Or.inl h
  · exact Or.inr (fun c hc => h ⟨c, hc⟩)

theorem edgeOf_config (config : List (List Int)) (c : Nat) :
    (config.zipIdx.flatMap relParts).filterMap (edgeOf (wLabel c)) =
      (config[c]?).elim [] (fun r => if r ≠ [] ∧ r.length ≤ 2 then [r] else []) := by
  rw [List.filterMap_flatMap, flatMap_zipIdx_single _ c]
  · simp only [Nat.zero_le, if_true, Nat.sub_zero, edgeOf_relParts, true_and]
  · rintro ⟨r, d⟩ _ hd
    simp only at hd
    rw [edgeOf_relParts, if_neg (fun h => hd (wLabel_inj h.1))]

theorem hyperOf_config (config : List (List Int)) (c : Nat) :
    (config.zipIdx.flatMap relParts).filterMap (hyperOf (wLabel c)) =
      (config[c]?).elim [] (fun r => if 2 < r.length then pairsOf r else []) := by
  rw [List.filterMap_flatMap, flatMap_zipIdx_single _ c]
  · simp only [Nat.zero_le, if_true, Nat.sub_zero, hyperOf_relParts, true_and]
  · rintro ⟨r, d⟩ _ hd
    simp only at hd
    rw [hyperOf_relParts, if_neg (fun h => hd (wLabel_inj h.1))]

theorem edgeOf_other (config : List (List Int)) {l : List Char} (h : ∀ c, wLabel c ≠ l) :
    (config.zipIdx.flatMap relParts).filterMap (edgeOf l) = [] := by
  rw [List.filterMap_flatMap, List.flatMap_eq_nil_iff]
  rintro ⟨r, c⟩ _
  rw [edgeOf_relParts, if_neg (fun hh => h c hh.1)]

theorem hyperOf_other (config : List (List Int)) {l : List Char} (h : ∀ c, wLabel c ≠ l) :
    (config.zipIdx.flatMap relParts).filterMap (hyperOf l) = [] := by
  rw [List.filterMap_flatMap, List.flatMap_eq_nil_iff]
  rintro ⟨r, c⟩ _
  rw [hyperOf_relParts, if_neg (fun hh => h c hh.1)]

/-! ## The order of strings -/

theorem strLe_refl : ∀ a : List Char, strLe a a = true
  | [] => rfl
  | _ :: as => by simp [strLe, strLe_refl as]

theorem char_toNat_inj {a b : Char} (h : a.toNat = b.toNat) : a = b := by
  have := Char.ofNat_toNat a
  rw [h, Char.ofNat_toNat] at this
  exact this.symm

theorem strLe_total : ∀ a b : List Char, strLe a b = true ∨ strLe b a = true
  | [], _ => Or.inl rfl
  | _ :: _, [] => Or.inr rfl
  | a :: as, b :: bs => by
    by_cases h : a = b
    · subst h
      simpa [strLe] using strLe_total as bs
    · have h' : ¬ b = a := fun e => h e.symm
      simp only [strLe, if_neg h, if_neg h', decide_eq_true_eq]
      have : a.toNat ≠ b.toNat := fun e => h (char_toNat_inj e)
      omega

theorem strLe_antisymm : ∀ {a b : List Char}, strLe a b = true → strLe b a = true → a = b
  | [], [], _, _ => rfl
  | [], _ :: _, _, h => by simp [strLe] at h
  | _ :: _, [], h, _ => by simp [strLe] at h
  | a :: as, b :: bs, h1, h2 => by
    by_cases h : a = b
    · subst h
      simp only [strLe, if_true] at h1 h2
      rw [strLe_antisymm h1 h2]
    · have h' : ¬ b = a := fun e => h e.symm
      simp only [strLe, if_neg h, if_neg h', decide_eq_true_eq] at h1 h2
      omega

theorem strLe_trans : ∀ {a b c : List Char}, strLe a b = true → strLe b c = true → strLe a c = true
  | [], _, _, _, _ => rfl
  | _ :: _, [], _, h, _ => by simp [strLe] at h
  | _ :: _, _ :: _, [], _, h => by simp [strLe] at h
  | a :: as, b :: bs, c :: cs, h1, h2 => by
    by_cases hab : a = b
    · subst hab
      by_cases hac : a = c
      · subst hac
        simp only [strLe, if_true] at h1 h2 ⊢
        exact strLe_trans h1 h2
      · simp only [strLe, if_true, if_neg hac] at h1 h2 ⊢
        exact h2
    · by_cases hbc : b = c
      · subst hbc
        simp only [strLe, if_true, if_neg hab] at h1 h2 ⊢
        exact h1
      · simp only [strLe, if_neg hab, if_neg hbc, decide_eq_true_eq] at h1 h2
        have hac : ¬ a = c := by rintro rfl; omega
        simp only [strLe, if_neg hac, decide_eq_true_eq]
        omega

/-! ## The round trip -/

/-- The dict `edges` at the end of `network_to_config`. -/
theorem wConfig_dict (config : List (List Int)) : ∃ d : Dict (List Char) (List Int), d.keys.Nodup ∧
    wConfig (wInit config).1 = .ok ((d.keys.mergeSort strLe).filterMap d.get?) ∧
    (∀ c, d.get? (wLabel c) = (config[c]?).bind (fun r => if r ≠ [] then some r else none)) ∧
    ∀ l, (∀ c, wLabel c ≠ l) → d.get? l = none := by
  obtain ⟨g, hg, h1, _, h2⟩ := wInit_ofMG config
  have hp := edges_perm hg.1
  rw [show g.edges.map (fun e => (e.src, e.dst, e.attr)) = _ from h2] at hp
  obtain ⟨qs, hq, hE⟩ := perm_triples hp
  have hinv := collectInv_fold qs [] ⟨[], []⟩ ⟨by simp, by simp, by simp, by simp⟩
  rw [List.nil_append] at hinv
  have hfold : (ofMG g).edges.foldlM wCollect ⟨[], []⟩ = .ok (qs.foldl wStep ⟨[], []⟩) := by rw [hE, wCollect_fold]
  generalize hs : qs.foldl wStep ⟨[], []⟩ = s at hinv hfold
  have hedge : ∀ l, (qs.filterMap (edgeOf l)).Perm ((config.zipIdx.flatMap relParts).filterMap (edgeOf l)) := fun l => hq.filterMap _
  have hhyper : ∀ l, (qs.filterMap (hyperOf l)).Perm ((config.zipIdx.flatMap relParts).filterMap (hyperOf l)) := fun l => hq.filterMap _
  -- the two dicts, label by label
  have he1 : ∀ c, s.edges.get? (wLabel c) = (config[c]?).bind (fun r => if r ≠ [] ∧ r.length ≤ 2 then some r else none) := by
    intro c
    rw [hinv.edges]
    have := hedge (wLabel c)
    rw [edgeOf_config] at this
    cases hc : config[c]? with
    | none =>
      rw [hc] at this
      rw [List.perm_nil.1 this]; rfl
    | some r =>
      rw [hc] at this
      simp only [Option.elim_some, Option.bind_some] at this ⊢
      split at this
      · rename_i hr
        rw [List.perm_singleton.1 this, if_pos hr]; rfl
      · rename_i hr
        rw [List.perm_nil.1 this, if_neg hr]; rfl
  have he2 : ∀ l, (∀ c, wLabel c ≠ l) → s.edges.get? l = none := by
    intro l hl
    rw [hinv.edges]
    have := hedge l
    rw [edgeOf_other config hl] at this
    rw [List.perm_nil.1 this]; rfl
  have hh1 : ∀ c ps, s.hyper.get? (wLabel c) = some ps → ∃ r, config[c]? = some r ∧ 2 < r.length ∧ ps.Perm (pairsOf r) := by
    intro c ps hps
    rw [hinv.hyper] at hps
    have := hhyper (wLabel c)
    rw [hyperOf_config] at this
    split at hps
    · exact absurd hps (by simp)
    · rename_i hne
      injection hps with hps
      subst hps
      cases hc : config[c]? with
      | none =>
        rw [hc] at this
        exact absurd (List.perm_nil.1 this) hne
      | some r =>
        rw [hc] at this
        simp only [Option.elim_some] at this
        split at this
        · rename_i hr
          exact ⟨r, rfl, hr, this⟩
        · exact absurd (List.perm_nil.1 this) hne
  have hh1' : ∀ c r, config[c]? = some r → 2 < r.length → (s.hyper.get? (wLabel c)).isSome := by
    intro c r hc hr
    rw [hinv.hyper]
    have := hhyper (wLabel c)
    rw [hyperOf_config, hc] at this
    simp only [Option.elim_some, if_pos hr] at this
    have hl := this.length_eq
    rw [length_pairsOf] at hl
    rw [if_neg (by intro h0; rw [h0] at hl; simp at hl; omega)]
    rfl
  have hh2 : ∀ l, (∀ c, wLabel c ≠ l) → s.hyper.get? l = none := by
    intro l hl
    rw [hinv.hyper]
    have := hhyper l
    rw [hyperOf_other config hl] at this
    rw [List.perm_nil.1 this]; rfl
  -- the merging
  let f : List Char → List Int := fun l => ((s.hyper.get? l).bind (fun ps => (wMerge ps).toOption)).getD []
  have hf : ∀ c ps, s.hyper.get? (wLabel c) = some ps → ∃ r, config[c]? = some r ∧ 2 < r.length ∧ wMerge ps = .ok r ∧ f (wLabel c) = r := by
    intro c ps hps
    obtain ⟨r, a, b, p⟩ := hh1 c ps hps
    have hm := wMerge_spec b p
    refine ⟨r, a, b, hm, ?_⟩
    simp only [f, hps, Option.bind_some, hm]
    rfl
  have hmerge : wMergeAll s.hyper = .ok (s.hyper.map (fun p => (p.1, f p.1))) := by
    apply wMergeAll_spec
    rintro ⟨l, ps⟩ hp
    have hget := Dict.get?_of_mem hinv.hnodup hp
    rcases label_cases l with ⟨c, rfl⟩ | hl
    · obtain ⟨r, _, _, hm, hfr⟩ := hf c ps hget
      simp only
      rw [hm, hfr]
    · rw [hh2 l hl] at hget; exact absurd hget (by simp)
  have hmk : (s.hyper.map (fun p => (p.1, f p.1)) : Dict (List Char) (List Int)) = Dict.ofKeys s.hyper.keys f := by
    simp [Dict.ofKeys, Dict.keys, List.map_map, Function.comp_def]
  have hmn : (Dict.keys (s.hyper.map (fun p => (p.1, f p.1)) : Dict (List Char) (List Int))).Nodup := by
    rw [hmk, Dict.keys_ofKeys]; exact hinv.hnodup
  have hup : ∀ l, (s.edges.update (s.hyper.map (fun p => (p.1, f p.1)))).get? l =
      if l ∈ s.hyper.keys then some (f l) else s.edges.get? l := by
    intro l
    rw [Dict.get?_update _ _ _ hmn, hmk, Dict.get?_ofKeys]
    split <;> simp_all
  refine ⟨s.edges.update (s.hyper.map (fun p => (p.1, f p.1))), Dict.nodup_keys_update hinv.enodup _, ?_, ?_, ?_⟩
  · unfold wConfig
    rw [h1, hfold]
    simp only
    rw [hmerge]
  · intro c
    rw [hup]
    split
    · rename_i hm
      obtain ⟨ps, hps⟩ := Dict.exists_get?_of_mem_keys hm
      obtain ⟨r, a, b, _, hfr⟩ := hf c ps hps
      rw [a, hfr]
      have : r ≠ [] := by rintro rfl; simp at b
      simp [this]
    · rename_i hm
      rw [he1]
      cases hc : config[c]? with
      | none => rfl
      | some r =>
        have : ¬ 2 < r.length := by
          intro hr
          exact hm (Dict.isSome_get?_iff.1 (hh1' c r hc hr))
        simp only [Option.bind_some]
        by_cases hr : r = []
        · simp [hr]
        · rw [if_pos ⟨hr, by omega⟩, if_pos hr]
  · intro l hl
    rw [hup, if_neg (by rw [← Dict.get?_eq_none_iff]; exact hh2 l hl), he2 l hl]

/-- The relations with their labels. -/
def labelled (config : List (List Int)) : List (List Char × List Int) :=
  (config.zipIdx.filter (fun p => decide (p.1 ≠ []))).map (fun p => (wLabel p.2, p.1))

theorem nodup_zipIdx {α : Type} (l : List α) : (l.zipIdx.map Prod.snd).Nodup := by
  rw [List.zipIdx_map_snd]; exact List.nodup_range'

theorem mem_labelled {config : List (List Int)} {p : List Char × List Int} :
    p ∈ labelled config ↔ ∃ c, config[c]? = some p.2 ∧ p.2 ≠ [] ∧ wLabel c = p.1 := by
  unfold labelled
  simp only [List.mem_map, List.mem_filter, decide_eq_true_eq]
  constructor
  · rintro ⟨⟨r, c⟩, ⟨h1, h2⟩, rfl⟩
    exact ⟨c, List.mem_zipIdx_iff_getElem?.1 h1, h2, rfl⟩
  · rintro ⟨c, h1, h2, h3⟩
    exact ⟨(p.2, c), ⟨List.mem_zipIdx_iff_getElem?.2 h1, h2⟩, by simp only [h3]⟩

theorem nodup_labelled (config : List (List Int)) : ((labelled config).map Prod.fst).Nodup := by
  unfold labelled
  rw [List.map_map]
  have h := (nodup_zipIdx config)
  have h2 : ((config.zipIdx.filter (fun p => decide (p.1 ≠ []))).map Prod.snd).Nodup :=
    (List.filter_sublist.map Prod.snd).nodup h
  have h3 : (config.zipIdx.filter (fun p => decide (p.1 ≠ []))).map (Prod.fst ∘ fun p : List Int × Nat => (wLabel p.2, p.1)) =
      ((config.zipIdx.filter (fun p => decide (p.1 ≠ []))).map Prod.snd).map wLabel := by
    rw [List.map_map]; rfl
  rw [h3]
  unfold List.Nodup at h2 ⊢
  rw [List.pairwise_map]
  exact h2.imp (fun hne he => hne (wLabel_inj he))

theorem wNodup_of_map {α β : Type} (f : α → β) {l : List α} (h : (l.map f).Nodup) : l.Nodup := by
  unfold List.Nodup at h ⊢
  rw [List.pairwise_map] at h
  exact h.imp (fun hne he => hne (by rw [he]))

theorem filterMap_pair_fst {d : Dict (List Char) (List Int)} : ∀ {ks : List (List Char)}, (∀ k ∈ ks, k ∈ d.keys) →
    (ks.filterMap (fun k => (d.get? k).map (fun r => (k, r)))).map Prod.fst = ks ∧
    (ks.filterMap (fun k => (d.get? k).map (fun r => (k, r)))).map Prod.snd = ks.filterMap d.get?
  | [], _ => ⟨rfl, rfl⟩
  | k :: ks, h => by
    obtain ⟨v, hv⟩ := Dict.exists_get?_of_mem_keys (h k (List.mem_cons_self ..))
    obtain ⟨h1, h2⟩ := filterMap_pair_fst (d := d) (ks := ks) (fun x hx => h x (List.mem_cons_of_mem _ hx))
    simp only [List.filterMap_cons, hv, Option.map_some, List.map_cons, h1, h2, and_self]

theorem wConfig_sorted (config : List (List Int)) : ∃ sorted : List (List Char × List Int),
    sorted.Perm (labelled config) ∧ sorted.Pairwise (fun p q => strLe p.1 q.1 = true) ∧
    wConfig (wInit config).1 = .ok (sorted.map Prod.snd) := by
  obtain ⟨d, hd, h1, h2, h3⟩ := wConfig_dict config
  have hks : ∀ k ∈ d.keys.mergeSort strLe, k ∈ d.keys := fun k hk => (List.mergeSort_perm _ _).mem_iff.1 hk
  have hkn : (d.keys.mergeSort strLe).Nodup := (List.mergeSort_perm _ _).nodup_iff.2 hd
  obtain ⟨e1, e2⟩ := filterMap_pair_fst hks
  have hnd : ((d.keys.mergeSort strLe).filterMap (fun k => (d.get? k).map (fun r => (k, r)))).Nodup :=
    wNodup_of_map Prod.fst (by rw [e1]; exact hkn)
  refine ⟨(d.keys.mergeSort strLe).filterMap (fun k => (d.get? k).map (fun r => (k, r))), ?_, ?_, ?_⟩
  · refine (List.perm_ext_iff_of_nodup hnd (wNodup_of_map Prod.fst (nodup_labelled config))).2 ?_
    rintro ⟨l, r⟩
    rw [mem_labelled, List.mem_filterMap]
    constructor
    · rintro ⟨k, hk, hkr⟩
      simp only [Option.map_eq_some_iff, Prod.mk.injEq] at hkr
      obtain ⟨r', hr', rfl, rfl⟩ := hkr
      rcases label_cases k with ⟨c, rfl⟩ | hl
      · rw [h2] at hr'
        cases hc : config[c]? with
        | none => rw [hc] at hr'; simp at hr'
        | some r =>
          rw [hc] at hr'
          simp only [Option.bind_some] at hr'
          split at hr'
          · rename_i hne
            injection hr' with hr'
            subst hr'
            exact ⟨c, hc, hne, rfl⟩
          · simp at hr'
      · rw [h3 k hl] at hr'; simp at hr'
    · rintro ⟨c, hc, hne, rfl⟩
      have hg : d.get? (wLabel c) = some r := by
        rw [h2, hc]
        simp only [Option.bind_some, if_pos hne]
      exact ⟨wLabel c, (List.mergeSort_perm _ _).mem_iff.2 (Dict.mem_keys_of_get? hg), by rw [hg]; rfl⟩
  · have hs : (d.keys.mergeSort strLe).Pairwise (fun a b => strLe a b = true) := by
      refine List.pairwise_mergeSort ?_ ?_ _
      · intro a b c h h'; exact strLe_trans h h'
      · intro a b; simpa using strLe_total a b
    rw [← e1, List.pairwise_map] at hs
    exact hs
  · rw [h1, e2]

end Verif
