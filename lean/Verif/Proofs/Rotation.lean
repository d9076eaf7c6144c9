import Verif.Proofs.Topology
import Verif.Proofs.NetworkQueries
import Verif.Proofs.Copy
/-! # Lemmas on the rotation systems of the cellular automata -/

namespace Verif

open Spec MG

/-- Two strictly ascending lists with the same members are equal. -/
theorem ascending_ext {l m : List Nat} (hl : l.Pairwise (· < ·)) (hm : m.Pairwise (· < ·))
    (h : ∀ x, x ∈ l ↔ x ∈ m) : l = m := by
  have ndl : l.Nodup := hl.imp (fun h => Nat.ne_of_lt h)
  have ndm : m.Nodup := hm.imp (fun h => Nat.ne_of_lt h)
  have hp : l.Perm m := (List.perm_ext_iff_of_nodup ndl ndm).2 h
  refine hp.eq_of_pairwise (le := (· < ·)) ?_ hl hm
  intro a b _ _ h1 h2; omega

section
variable {W : Type} [Zero W] [DecidableEq W]

theorem pairwise_zipIdx_snd {α : Type} (l : List α) (k : Nat) : ((l.zipIdx k).map Prod.snd).Pairwise (· < ·) := by
  rw [List.zipIdx_map_snd]; exact List.pairwise_lt_range'

theorem matrixEntries_sorted (M : List (List W)) : (matrixEntries M).Pairwise (fun s t => s.1 ≤ t.1) := by
  unfold matrixEntries
  rw [List.pairwise_flatMap]
  constructor
  · intro r _
    rw [List.pairwise_map]
    exact List.pairwise_of_forall (fun _ _ => Nat.le_refl _)
  · have h := pairwise_zipIdx_snd M 0
    rw [List.pairwise_map] at h
    refine h.imp ?_
    intro r r' hlt s hs t ht
    simp only [List.mem_map] at hs ht
    obtain ⟨_, _, rfl⟩ := hs
    obtain ⟨_, _, rfl⟩ := ht
    exact Nat.le_of_lt hlt

/-- The in-neighbours in a network built from a matrix are listed in ascending order. -/
theorem sources_adjMG_sorted (M : List (List W)) (j : Nat) : (sources (adjMG M).edges j).Pairwise (· < ·) := by
  have hs : (((adjMG M).edges.filter (fun e => decide (e.dst = j))).map Edge.src).Pairwise (· < ·) := by
    rw [adjMG_edges, List.filter_map, List.map_map, List.pairwise_map]
    have h1 := (matrixEntries_sorted M).and
      (List.pairwise_map.1 (nodup_matrixEntries M : ((matrixEntries M).map (fun t => (t.1, t.2.1))).Pairwise (· ≠ ·)))
    refine (h1.filter _).imp_of_mem ?_
    rintro ⟨a, b, v⟩ ⟨a', b', v'⟩ ha hb ⟨hle, hne⟩
    simp only [List.mem_filter, Function.comp, decide_eq_true_eq] at ha hb
    simp only [Function.comp] at hle hne ⊢
    rcases Nat.lt_or_eq_of_le hle with h | h
    · exact h
    · exact absurd (by rw [h, ha.2, hb.2]) hne
  unfold sources
  rw [dedup_of_nodup (hs.imp (fun h => Nat.ne_of_lt h))]
  exact hs

theorem mem_sources_adjMG {M : List (List W)} {i j : Nat} :
    i ∈ sources (adjMG M).edges j ↔ ∃ v, v ≠ 0 ∧ entry M i j = some v := by
  have h := between_adjMG M i j
  haveI : Decidable (∃ v, v ≠ 0 ∧ entry M i j = some v) := Classical.propDecidable _
  rw [← Decidable.not_iff_not, ← between_eq_nil_iff, h]
  cases he : entry M i j with
  | none => simp
  | some v => by_cases hv : v = 0 <;> simp [hv]

end

/-! ## `_shift_to_center` -/

theorem rotateRight_perm {α : Type} (l : List α) (k : Int) : (rotateRight l k).Perm l := by
  unfold rotateRight
  split
  · exact List.Perm.refl _
  · have := List.perm_append_comm (l₁ := l.drop (l.length - (k % (l.length : Int)).toNat))
      (l₂ := l.take (l.length - (k % (l.length : Int)).toNat))
    rwa [List.take_append_drop] at this

theorem rotateRight_getElem? {α : Type} (l : List α) (k : Int) {p : Nat} (hp : p < l.length) :
    (rotateRight l k)[p]? = l[(((p : Int) - k) % (l.length : Int)).toNat]? := by
  have hm : l.length ≠ 0 := by omega
  unfold rotateRight
  rw [if_neg hm]
  simp only
  have h1 := Int.emod_nonneg k (b := (l.length : Int)) (by omega)
  have h2 := Int.emod_lt_of_pos k (b := (l.length : Int)) (by omega)
  have h3 : ((p : Int) - k) % (l.length : Int) = ((p : Int) - k % (l.length : Int)) % (l.length : Int) := by
    rw [Int.sub_emod, Int.sub_emod (p : Int) (k % _), Int.emod_emod]
  rw [h3]
  generalize hk : k % (l.length : Int) = kk at *
  rw [List.getElem?_append]
  simp only [List.length_drop]
  by_cases hlt : p < kk.toNat
  · rw [if_pos (by omega), List.getElem?_drop]
    have : ((p : Int) - kk) % (l.length : Int) = (p : Int) - kk + l.length := by
      rw [← Int.add_emod_right]; exact Int.emod_eq_of_lt (by omega) (by omega)
    rw [this]
    congr 1; omega
  · rw [if_neg (by omega), Int.emod_eq_of_lt (by omega) (by omega), List.getElem?_take]
    rw [if_pos (by omega)]
    congr 1; omega

theorem rotateRight_length {α : Type} (l : List α) (k : Int) : (rotateRight l k).length = l.length :=
  (rotateRight_perm l k).length_eq

theorem sortedNat_asc {l : List Nat} (hl : l.Pairwise (· < ·)) : sortedNat l = l := by
  induction l with
  | nil => rfl
  | cons a l ih =>
    rw [List.pairwise_cons] at hl
    rw [sortedNat, ih hl.2]
    cases l with
    | nil => rfl
    | cons b l => rw [insertNat, if_pos (Nat.le_of_lt (hl.1 b (by simp)))]

theorem shiftToCenter_ok {l : List Nat} (hl : l.Pairwise (· < ·)) {i x : Nat} (hi : l[i]? = some x) :
    shiftToCenter l x = .ok (rotateRight l (((l.length / 2 : Nat) : Int) - (i : Int))) := by
  have hx : x ∈ l := List.mem_of_getElem? hi
  have hnd : l.Nodup := hl.imp (fun h => Nat.ne_of_lt h)
  obtain ⟨i', h1, _, h3⟩ := idxOf?_of_mem hx
  have := getElem?_inj_of_nodup hnd hi h3
  subst this
  unfold shiftToCenter
  rw [h1]
  simp only
  rw [sortedNat_asc hl]

/-- `_shift_to_center` of an ascending list: a rearrangement, with the node in the middle. -/
theorem shiftToCenter_spec {l : List Nat} (hl : l.Pairwise (· < ·)) {x : Nat} (hx : x ∈ l) :
    ∃ l', shiftToCenter l x = .ok l' ∧ l'.Perm l ∧ l'[l.length / 2]? = some x := by
  obtain ⟨i, -, hlt, hi⟩ := idxOf?_of_mem hx
  refine ⟨_, shiftToCenter_ok hl hi, rotateRight_perm _ _, ?_⟩
  rw [rotateRight_getElem? _ _ (by omega)]
  have h1 : ((l.length / 2 : Nat) : Int) - (((l.length / 2 : Nat) : Int) - (i : Int)) = i := by omega
  rw [h1, Int.emod_eq_of_lt (by omega) (by omega)]
  simpa using hi

theorem mapM_total {α β : Type} {f : α → Except Err β} {g : α → β} {xs : List α} (h : ∀ x ∈ xs, f x = .ok (g x)) :
    xs.mapM f = .ok (xs.map g) := by
  induction xs with
  | nil => rfl
  | cons a xs ih =>
    rw [List.mapM_cons, h a (by simp), ih (fun x hx => h x (by simp [hx]))]
    rfl

/-- The rotation entry of node `x` in a network made from a matrix. -/
def rotEntry {W : Type} [Zero W] [DecidableEq W] (M : List (List W)) (x : Nat) : List Nat :=
  match shiftToCenter (sources (adjMG M).edges x) x with
  | .ok l => l
  | .error _ => []

theorem get?_mapSelf {V : Type} (ls : List Nat) (F : Nat → V) {x : Nat} (hx : x ∈ ls) :
    Dict.get? (ls.map (fun y => (y, F y)) : Dict Nat V) x = some (F x) := by
  induction ls with
  | nil => simp at hx
  | cons a ls ih =>
    by_cases h : a = x
    · subst h; simp [Dict.get?]
    · have hx' : x ∈ ls := by
        rcases List.mem_cons.1 hx with h' | h'
        · exact absurd h'.symm h
        · exact h'
      have := ih hx'
      simp only [Dict.get?, List.map_cons, List.find?_cons, decide_eq_true_eq, h, decide_false] at this ⊢
      simpa [h] using this

/-- `orderNetwork` succeeds when every node has a self-loop, and each entry is centred. -/
theorem orderNetwork_ok {W : Type} [Zero W] [DecidableEq W] (M : List (List W))
    (hself : ∀ x ∈ (adjMG M).labels, x ∈ sources (adjMG M).edges x) :
    orderNetwork (fromAdjacencyMatrix M) =
      .ok { fromAdjacencyMatrix M with
        rotation := some ((fromAdjacencyMatrix M).labels.map (fun x => (x, rotEntry M x))) } ∧
    ∀ x ∈ (fromAdjacencyMatrix M).labels, shiftToCenter (sources (adjMG M).edges x) x = .ok (rotEntry M x) := by
  obtain ⟨h, hv⟩ := fromAdjacencyMatrix_eq M
  have hrot : ∀ x ∈ (adjMG M).labels, shiftToCenter (sources (adjMG M).edges x) x = .ok (rotEntry M x) ∧
      (rotEntry M x).Perm (sources (adjMG M).edges x) := by
    intro x hx
    obtain ⟨l', h1, h2, _⟩ := shiftToCenter_spec (sources_adjMG_sorted M x) (hself x hx)
    simp only [rotEntry, h1, h2, and_self]
  have hl : (ofMG (adjMG M)).labels = (adjMG M).labels := labels_ofMG _
  rw [h]
  refine ⟨?_, fun x hx => (hrot x (by rwa [hl] at hx)).1⟩
  unfold orderNetwork
  rw [mapM_total (g := fun x => (x, rotEntry M x))]
  · simp only
    rw [ofPairs_nodup]
    · have hc : ((ofMG (adjMG M)).labels.map (fun x => (x, rotEntry M x))).all
          (fun p => (ofMG (adjMG M)).nodes.has p.1 && p.2.all (fun x => (ofMG (adjMG M)).nodes.has x)) = true := by
        rw [List.all_eq_true]
        intro p hp
        simp only [List.mem_map] at hp
        obtain ⟨x, hx, rfl⟩ := hp
        rw [hl] at hx
        simp only [has_ofMG, Bool.and_eq_true, decide_eq_true_eq, List.all_eq_true]
        refine ⟨hx, ?_⟩
        intro y hy
        have := (hrot x hx).2.mem_iff.1 hy
        exact (mem_labels_of_mem_sources hv this).1
      unfold Net.setRotation
      rw [if_pos hc]
    · rw [List.map_map]
      have : (Prod.fst ∘ fun x => (x, rotEntry M x)) = (id : Nat → Nat) := rfl
      rw [this, List.map_id, hl]
      exact hv.nodup
  · intro x hx
    rw [hl] at hx
    unfold centredEntry
    rw [inEdges_ofMG hx]
    simp only
    rw [keys_incomingOf, (hrot x hx).1]

end Verif
