import Verif.Lemmas.Reads

/-
Reading does not depend on members a reader does not know, at any level. Helper lemmas for Verif/Props/Padding.lean.
-/

namespace Verif
open Spec

/-- Two objects that differ in the value of one known member. -/
theorem structFields_replace {known : List Str} {d : Nat} (pre post : List (Bytes × Raw)) {k : Bytes} {n : Str}
    (x y : Raw) (hk : decStr k = some n) (hn : n ∈ known) :
    (structFields known d (.obj (pre ++ (k, x) :: post)) = none ∧
      structFields known d (.obj (pre ++ (k, y) :: post)) = none) ∨
    ∃ fs fs', structFields known d (.obj (pre ++ (k, x) :: post)) = some fs ∧
      structFields known d (.obj (pre ++ (k, y) :: post)) = some fs' ∧
      (∀ m, m ≠ n → fs.lookup m = fs'.lookup m) ∧ fs.lookup n = some x ∧ fs'.lookup n = some y := by
  have km : ∀ z, knownMembers known (pre ++ (k, z) :: post) =
      knownMembers known pre ++ (n, z) :: knownMembers known post := by
    intro z
    simp [knownMembers, List.filterMap_append, hk, hn]
  have hdec : ∀ z, (∀ kv ∈ pre ++ (k, z) :: post, (decStr kv.1).isSome) ↔
      ((∀ kv ∈ pre, (decStr kv.1).isSome) ∧ ∀ kv ∈ post, (decStr kv.1).isSome) := by
    intro z
    simp only [List.forall_mem_append, List.forall_mem_cons, hk, Option.isSome_some, true_and]
  have key : ∀ z fs, collectFields known [] (pre ++ (k, z) :: post) = some fs ↔
      ((∀ kv ∈ pre, (decStr kv.1).isSome) ∧ ∀ kv ∈ post, (decStr kv.1).isSome) ∧
      ((knownMembers known pre).map (·.1) ++ n :: (knownMembers known post).map (·.1)).Nodup ∧
      fs = knownMembers known pre ++ (n, z) :: knownMembers known post := by
    intro z fs
    rw [collectFields_iff _ _ _ _ (by simp), hdec, km]
    simp
  simp only [structFields]
  by_cases hd : d ≤ 1
  · rw [if_pos hd, if_pos hd]; exact .inl ⟨rfl, rfl⟩
  rw [if_neg hd, if_neg hd]
  cases h : collectFields known [] (pre ++ (k, x) :: post) with
  | none =>
    cases h' : collectFields known [] (pre ++ (k, y) :: post) with
    | none => exact .inl ⟨rfl, rfl⟩
    | some fs =>
      obtain ⟨h1, h2, _⟩ := (key y fs).mp h'
      rw [(key x _).mpr ⟨h1, h2, rfl⟩] at h
      cases h
  | some fs =>
    obtain ⟨h1, h2, rfl⟩ := (key x fs).mp h
    refine .inr ⟨_, _, rfl, (key y _).mpr ⟨h1, h2, rfl⟩, ?_⟩
    have hnp : ∀ q ∈ knownMembers known pre, (n == q.1) = false := by
      intro q hq
      have := (List.nodup_append.mp h2).2.2 q.1 (List.mem_map_of_mem hq) n (by simp)
      simpa using this.symm
    have hno : (knownMembers known pre).lookup n = none := by
      rw [List.lookup_eq_none_iff]
      intro q hq
      simpa using hnp q hq
    refine ⟨?_, ?_, ?_⟩
    · intro m hm
      rw [List.lookup_append, List.lookup_append]
      simp only [List.lookup]
      rw [show (m == n) = false by simpa using hm]
    · rw [List.lookup_append, hno]; simp [List.lookup]
    · rw [List.lookup_append, hno]; simp [List.lookup]

theorem reqField_lookup {α : Type} {fs fs' : List (Str × Raw)} {m : Str} (h : fs.lookup m = fs'.lookup m)
    (f : Raw → Option α) : reqField fs m f = reqField fs' m f := by
  unfold reqField; rw [h]

theorem optField_lookup {α : Type} {fs fs' : List (Str × Raw)} {m : Str} (h : fs.lookup m = fs'.lookup m)
    (f : Raw → Option α) : optField fs m f = optField fs' m f := by
  unfold optField; rw [h]

theorem optField_obj {α : Type} {fs fs' : List (Str × Raw)} {m : Str} {f : Raw → Option α}
    {a b : List (Bytes × Raw)} (h : fs.lookup m = some (.obj a)) (h' : fs'.lookup m = some (.obj b))
    (e : f (.obj a) = f (.obj b)) : optField fs m f = optField fs' m f := by
  unfold optField; rw [h, h']; simp only [e]

theorem reqField_some {α : Type} {fs fs' : List (Str × Raw)} {m : Str} {f : Raw → Option α} {a b : Raw}
    (h : fs.lookup m = some a) (h' : fs'.lookup m = some b) (e : f a = f b) : reqField fs m f = reqField fs' m f := by
  unfold reqField; rw [h, h']; exact e

theorem VC.dec_proof {E : Env} {d : Nat} (pre post : List (Bytes × Raw)) {k : Bytes} (a b : List (Bytes × Raw))
    (hk : decStr k = some "proof".toList) (e : Proof.dec (d - 1) (.obj a) = Proof.dec (d - 1) (.obj b)) :
    VC.dec E d (.obj (pre ++ (k, .obj a) :: post)) = VC.dec E d (.obj (pre ++ (k, .obj b) :: post)) := by
  unfold VC.dec
  rcases structFields_replace (known := VC.fieldNames) (d := d) pre post (.obj a) (.obj b) hk (by decide) with
    ⟨h1, h2⟩ | ⟨fs, fs', h1, h2, h3, h4, h5⟩
  · rw [h1, h2]
  · rw [h1, h2]
    simp only [reqField_lookup (h3 "@context".toList (by decide)), reqField_lookup (h3 "type".toList (by decide)),
      reqField_lookup (h3 "credentialSubject".toList (by decide)), reqField_lookup (h3 "id".toList (by decide)),
      reqField_lookup (h3 "issuer".toList (by decide)), optField_obj h4 h5 e]

theorem VP.dec_proof {E : Env} {d : Nat} (pre post : List (Bytes × Raw)) {k : Bytes} (a b : List (Bytes × Raw))
    (hk : decStr k = some "proof".toList) (e : Proof.dec (d - 1) (.obj a) = Proof.dec (d - 1) (.obj b)) :
    VP.dec E d (.obj (pre ++ (k, .obj a) :: post)) = VP.dec E d (.obj (pre ++ (k, .obj b) :: post)) := by
  unfold VP.dec
  rcases structFields_replace (known := VP.fieldNames) (d := d) pre post (.obj a) (.obj b) hk (by decide) with
    ⟨h1, h2⟩ | ⟨fs, fs', h1, h2, h3, h4, h5⟩
  · rw [h1, h2]
  · rw [h1, h2]
    simp only [reqField_lookup (h3 "@context".toList (by decide)), reqField_lookup (h3 "type".toList (by decide)),
      reqField_lookup (h3 "verifiableCredential".toList (by decide)), optField_lookup (h3 "holder".toList (by decide)),
      optField_obj h4 h5 e]

theorem VP.dec_credential {E : Env} {d : Nat} (pre post : List (Bytes × Raw)) {k : Bytes} (xs ys : List Raw) (x y : Raw)
    (hk : decStr k = some "verifiableCredential".toList) (e : ∀ d, VC.dec E d x = VC.dec E d y) :
    VP.dec E d (.obj (pre ++ (k, .arr (xs ++ x :: ys)) :: post)) =
      VP.dec E d (.obj (pre ++ (k, .arr (xs ++ y :: ys)) :: post)) := by
  unfold VP.dec
  rcases structFields_replace (known := VP.fieldNames) (d := d) pre post (.arr (xs ++ x :: ys)) (.arr (xs ++ y :: ys)) hk
    (by decide) with ⟨h1, h2⟩ | ⟨fs, fs', h1, h2, h3, h4, h5⟩
  · rw [h1, h2]
  · have e' : decVec (VC.dec E) (d - 1) (.arr (xs ++ x :: ys)) = decVec (VC.dec E) (d - 1) (.arr (xs ++ y :: ys)) := by
      simp only [decVec]
      rw [optAll_congr_mid xs ys (e _)]
    rw [h1, h2]
    simp only [reqField_lookup (h3 "@context".toList (by decide)), reqField_lookup (h3 "type".toList (by decide)),
      optField_lookup (h3 "proof".toList (by decide)), optField_lookup (h3 "holder".toList (by decide)),
      reqField_some h4 h5 e']

end Verif
