import Verif.Json.Raw

/-
Decidable equality of token trees, for the examples.
-/

namespace Verif

mutual
/-- Equality test. -/
def Raw.same : Raw → Raw → Bool
  | .null, .null => true
  | .bool a, .bool b => a == b
  | .num a, .num b => a == b
  | .str a, .str b => a == b
  | .arr a, .arr b => Raw.sameList a b
  | .obj a, .obj b => Raw.sameMembers a b
  | _, _ => false
def Raw.sameList : List Raw → List Raw → Bool
  | [], [] => true
  | a :: as, b :: bs => Raw.same a b && Raw.sameList as bs
  | _, _ => false
def Raw.sameMembers : List (Bytes × Raw) → List (Bytes × Raw) → Bool
  | [], [] => true
  | (k, a) :: as, (l, b) :: bs => k == l && Raw.same a b && Raw.sameMembers as bs
  | _, _ => false
end

mutual
theorem Raw.same_eq (a b : Raw) (h : Raw.same a b = true) : a = b := by
  cases a <;> cases b <;> simp only [Raw.same, Bool.false_eq_true] at h <;> try rfl
  case bool.bool => simpa using h
  case num.num => simpa using h
  case str.str => simpa using h
  case arr.arr a b => rw [Raw.sameList_eq a b h]
  case obj.obj a b => rw [Raw.sameMembers_eq a b h]
theorem Raw.sameList_eq (a b : List Raw) (h : Raw.sameList a b = true) : a = b := by
  match a, b with
  | [], [] => rfl
  | a :: as, b :: bs =>
    simp only [Raw.sameList, Bool.and_eq_true] at h
    rw [Raw.same_eq a b h.1, Raw.sameList_eq as bs h.2]
  | [], b :: bs => simp [Raw.sameList] at h
  | a :: as, [] => simp [Raw.sameList] at h
theorem Raw.sameMembers_eq (a b : List (Bytes × Raw)) (h : Raw.sameMembers a b = true) : a = b := by
  match a, b with
  | [], [] => rfl
  | (k, a) :: as, (l, b) :: bs =>
    simp only [Raw.sameMembers, Bool.and_eq_true, beq_iff_eq] at h
    rw [h.1.1, Raw.same_eq a b h.1.2, Raw.sameMembers_eq as bs h.2]
  | [], b :: bs => simp [Raw.sameMembers] at h
  | a :: as, [] => simp [Raw.sameMembers] at h
end

/-- A successful parse, tested. -/
theorem Raw.parse_of_same {bs : Bytes} {r : Raw}
    (h : (match Raw.parse bs with
      | some x => Raw.same x r
      | none => false) = true) : Raw.parse bs = some r := by
  split at h
  · rename_i x hx; rw [hx, Raw.same_eq _ _ h]
  · cases h

end Verif
