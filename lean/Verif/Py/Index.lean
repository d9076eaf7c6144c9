import Verif.Py.Err
/-! # Python sequence indexing -/

namespace Verif

/-- Position addressed by the Python index `k` in a sequence of length `n`: negative indices count from the end;
`none` is an `IndexError`. -/
def pyIndex (n : Nat) (k : Int) : Option Nat :=
  if 0 ≤ k ∧ k < (n : Int) then some k.toNat
  else if -(n : Int) ≤ k ∧ k < 0 then some (k + (n : Int)).toNat
  else none

/-- `xs[k]`, raising `IndexError`. -/
def pyGet {α : Type} (xs : List α) (k : Int) : Except Err α :=
  match pyIndex xs.length k with
  | none => .error .indexError
  | some p => match xs[p]? with
    | some v => .ok v
    | none => .error .indexError

/-- `xs[k] = v`, raising `IndexError`. -/
def pySet {α : Type} (xs : List α) (k : Int) (v : α) : Except Err (List α) :=
  match pyIndex xs.length k with
  | none => .error .indexError
  | some p => .ok (xs.set p v)

theorem pyIndex_lt {n : Nat} {k : Int} {p : Nat} (h : pyIndex n k = some p) : p < n := by
  unfold pyIndex at h
  split at h
  · simp at h; omega
  · split at h
    · simp at h; omega
    · simp at h

theorem pyIndex_natCast {n p : Nat} (h : p < n) : pyIndex n (p : Int) = some p := by
  unfold pyIndex; rw [if_pos (by omega)]; simp

theorem pyIndex_eq_none_iff {n : Nat} {k : Int} : pyIndex n k = none ↔ (k < -(n : Int) ∨ (n : Int) ≤ k) := by
  unfold pyIndex
  split
  · simp; omega
  · split
    · simp; omega
    · simp; omega

theorem pyGet_natCast {α : Type} (xs : List α) {p : Nat} (h : p < xs.length) :
    pyGet xs (p : Int) = .ok xs[p] := by
  simp [pyGet, pyIndex_natCast h, h]

theorem pySet_natCast {α : Type} (xs : List α) {p : Nat} (h : p < xs.length) (v : α) :
    pySet xs (p : Int) v = .ok (xs.set p v) := by
  simp [pySet, pyIndex_natCast h]

/-- The position in terms of residues: an index in range addresses `k mod n`. -/
theorem pyIndex_emod {n : Nat} {k : Int} (h1 : -(n : Int) ≤ k) (h2 : k < n) :
    pyIndex n k = some (k % (n : Int)).toNat := by
  unfold pyIndex
  by_cases hk : 0 ≤ k
  · rw [if_pos ⟨hk, h2⟩, Int.emod_eq_of_lt hk h2]
  · rw [if_neg (by omega), if_pos (by omega)]
    have : k % (n : Int) = k + n := by
      rw [← Int.add_emod_right]
      exact Int.emod_eq_of_lt (by omega) (by omega)
    rw [this]

end Verif
