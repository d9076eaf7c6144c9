import Verif.Model.Msgpack
import Verif.Proofs.Copy
/-! # Lemmas: which values survive msgpack -/

namespace Verif.PyVal

mutual
/-- Specification: values made of `None`, booleans, 64-bit integers, floats, strings, lists and string-keyed dicts. -/
def plain : PyVal → Bool
  | .none => true
  | .bool _ => true
  | .int z => decide (-(2 ^ 63) ≤ z ∧ z < 2 ^ 64)
  | .float _ => true
  | .str _ => true
  | .list xs => plainList xs
  | .tuple _ => false
  | .dict kvs => plainDict kvs
  | .object _ => false
/-- All items are plain. -/
def plainList : List PyVal → Bool
  | [] => true
  | x :: xs => plain x && plainList xs
/-- All values are plain. -/
def plainDict : List (String × PyVal) → Bool
  | [] => true
  | (_, x) :: xs => plain x && plainDict xs
end

mutual
theorem plain_iff : ∀ v : PyVal, plain v = true ↔ pack v = .ok () ∧ unpack v = v
  | .none => by simp [plain, pack, unpack]
  | .bool _ => by simp [plain, pack, unpack]
  | .int z => by
    simp only [plain, pack, unpack, decide_eq_true_eq, and_true]
    split <;> simp_all
  | .float _ => by simp [plain, pack, unpack]
  | .str _ => by simp [plain, pack, unpack]
  | .list xs => by
    simp only [plain, pack, unpack, PyVal.list.injEq]
    exact plainList_iff xs
  | .tuple xs => by simp [plain, unpack]
  | .dict kvs => by
    simp only [plain, pack, unpack, PyVal.dict.injEq]
    exact plainDict_iff kvs
  | .object _ => by simp [plain, pack]
theorem plainList_iff : ∀ xs : List PyVal, plainList xs = true ↔ packList xs = .ok () ∧ unpackList xs = xs
  | [] => by simp [plainList, packList, unpackList]
  | x :: xs => by
    simp only [plainList, packList, unpackList, Bool.and_eq_true, List.cons.injEq]
    rw [plain_iff x, plainList_iff xs]
    cases h : pack x with
    | error e => simp
    | ok u => simp; constructor <;> (intro h; simp_all)
theorem plainDict_iff : ∀ xs : List (String × PyVal), plainDict xs = true ↔ packDict xs = .ok () ∧ unpackDict xs = xs
  | [] => by simp [plainDict, packDict, unpackDict]
  | (k, x) :: xs => by
    simp only [plainDict, packDict, unpackDict, Bool.and_eq_true, List.cons.injEq, Prod.mk.injEq, true_and]
    rw [plain_iff x, plainDict_iff xs]
    cases h : pack x with
    | error e => simp
    | ok u => simp; constructor <;> (intro h; simp_all)
end

theorem exactAt_iff (v : PyVal) : codec.ExactAt v ↔ plain v = true := (plain_iff v).symm

end Verif.PyVal
