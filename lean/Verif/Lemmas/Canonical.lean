import Verif.Lemmas.Canon
import Verif.Lemmas.RoundTrip

/-
Reading of canonical text. Helper lemmas for the theorems in Verif/Props.
-/

namespace Verif
open Spec

section
variable {N : Type} (p : N → Bytes) (le : Str → Str → Bool)

theorem toRawMembers_eq (l : List (Str × Json N)) :
    Json.toRawMembers p l = l.map fun x => (encStr x.1, x.2.toRaw p) := by
  induction l with
  | nil => rfl
  | cons x l ih => simp only [Json.toRawMembers, List.map_cons, ih]

theorem memberNames_toRaw (l : List (Str × Json N)) : memberNames (Json.toRawMembers p l) = l.map (·.1) := by
  induction l with
  | nil => rfl
  | cons x l ih =>
    simp only [memberNames] at ih ⊢
    simp only [Json.toRawMembers, List.filterMap_cons, decStr_encStr, List.map_cons, ih]

mutual
/-- Canonicalising only reorders members. -/
theorem reorder_canon (j : Json N) (hd : DistinctKeys j) : Reorder (j.toRaw p) ((j.canon le).toRaw p) := by
  match j, hd with
  | .null, _ => simp only [Json.canon]; exact .refl _
  | .bool _, _ => simp only [Json.canon]; exact .refl _
  | .num _, _ => simp only [Json.canon]; exact .refl _
  | .str _, _ => simp only [Json.canon]; exact .refl _
  | .arr xs, hd =>
    simp only [Json.canon, Json.toRaw, DistinctKeys] at *
    exact reorder_canonList xs hd []
  | .obj kvs, hd =>
    simp only [Json.canon, Json.toRaw, DistinctKeys] at *
    refine (reorder_canonMembers kvs hd.2 []).trans ?_
    refine .perm ?_ ?_
    · rw [List.nil_append, toRawMembers_eq, toRawMembers_eq]
      exact (List.mergeSort_perm _ _).symm.map _
    · rw [List.nil_append, memberNames_toRaw, Json.canonMembers_eq, List.map_map]
      exact hd.1
theorem reorder_canonList (xs : List (Json N)) (hd : DistinctKeysElems xs) (pre : List Raw) :
    Reorder (.arr (pre ++ Json.toRawList p xs)) (.arr (pre ++ Json.toRawList p (Json.canonList le xs))) := by
  match xs, hd with
  | [], _ => exact .refl _
  | x :: xs, hd =>
    simp only [Json.canonList, Json.toRawList, DistinctKeysElems] at *
    refine (Reorder.elem pre _ (reorder_canon x hd.1)).trans ?_
    have := reorder_canonList xs hd.2 (pre ++ [(x.canon le).toRaw p])
    simpa using this
theorem reorder_canonMembers (kvs : List (Str × Json N)) (hd : DistinctKeysMembers kvs) (pre : List (Bytes × Raw)) :
    Reorder (.obj (pre ++ Json.toRawMembers p kvs)) (.obj (pre ++ Json.toRawMembers p (Json.canonMembers le kvs))) := by
  match kvs, hd with
  | [], _ => exact .refl _
  | (k, x) :: kvs, hd =>
    simp only [Json.canonMembers, Json.toRawMembers, DistinctKeysMembers] at *
    refine (Reorder.member (encStr k) pre _ (reorder_canon x hd.1)).trans ?_
    have := reorder_canonMembers kvs hd.2 (pre ++ [(encStr k, (x.canon le).toRaw p)])
    simpa using this
end
end

mutual
theorem Json.eq_of_mapNum {N M : Type} {p q : N → M} (j : Json N) (h : j.mapNum p = j.mapNum q) :
    ∀ n ∈ j.nums, p n = q n := by
  match j, h with
  | .null, _ => simp [Json.nums]
  | .bool _, _ => simp [Json.nums]
  | .num _, h => simpa [Json.mapNum, Json.nums] using h
  | .str _, _ => simp [Json.nums]
  | .arr xs, h => simp only [Json.mapNum, Json.nums, Json.arr.injEq] at *; exact Json.eq_of_mapNumList xs h
  | .obj kvs, h => simp only [Json.mapNum, Json.nums, Json.obj.injEq] at *; exact Json.eq_of_mapNumMembers kvs h
theorem Json.eq_of_mapNumList {N M : Type} {p q : N → M} (xs : List (Json N))
    (h : Json.mapNumList p xs = Json.mapNumList q xs) : ∀ n ∈ Json.numsList xs, p n = q n := by
  match xs, h with
  | [], _ => simp [Json.numsList]
  | x :: xs, h =>
    simp only [Json.mapNumList, List.cons.injEq] at h
    simp only [Json.numsList, List.mem_append, or_imp, forall_and]
    exact ⟨Json.eq_of_mapNum x h.1, Json.eq_of_mapNumList xs h.2⟩
theorem Json.eq_of_mapNumMembers {N M : Type} {p q : N → M} (xs : List (Str × Json N))
    (h : Json.mapNumMembers p xs = Json.mapNumMembers q xs) : ∀ n ∈ Json.numsMembers xs, p n = q n := by
  match xs, h with
  | [], _ => simp [Json.numsMembers]
  | (k, x) :: xs, h =>
    simp only [Json.mapNumMembers, List.cons.injEq, Prod.mk.injEq, true_and] at h
    simp only [Json.numsMembers, List.mem_append, or_imp, forall_and]
    exact ⟨Json.eq_of_mapNum x h.1, Json.eq_of_mapNumMembers xs h.2⟩
end

/-- Reading canonical text. -/
theorem fromSlice_jcs {E : Env} (L : E.JcsLaws) {α : Type} (f : Nat → Raw → Option α) (hf : ∀ d, Resp (f d))
    (j : Json (Num E.F)) (hd : DistinctKeys j) :
    fromSlice f (utf8Encode (jcsText E j)) = f 128 (j.toRaw E.jcsNum) := by
  rw [jcsText_bytes L]
  unfold fromSlice Json.jcs
  rw [Raw.parse_render _ (Json.toRaw_ok L.num_tok _)]
  exact (hf 128 _ _ (reorder_canon E.jcsNum E.keyLe j hd)).symm

end Verif
