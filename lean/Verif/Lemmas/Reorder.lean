import Verif.Model.VP
import Verif.Model.Context

/-
Reading does not depend on the order of object members. Helper lemmas for the theorems in Verif/Props.
-/

namespace Verif

/-- Member names after unescaping. -/
def Spec.memberNames (kvs : List (Bytes × Raw)) : List Str := kvs.filterMap fun kv => decStr kv.1

/-- `Reorder r r'`: the token trees differ only in the order of object members, at any depth, where the reordered
objects have distinct member names. -/
inductive Spec.Reorder : Raw → Raw → Prop where
  | refl (r : Raw) : Reorder r r
  | trans {a b c : Raw} (h1 : Reorder a b) (h2 : Reorder b c) : Reorder a c
  | perm {kvs kvs' : List (Bytes × Raw)} (hp : kvs.Perm kvs') (hn : (memberNames kvs).Nodup) :
      Reorder (.obj kvs) (.obj kvs')
  | elem {x y : Raw} (pre post : List Raw) (h : Reorder x y) :
      Reorder (.arr (pre ++ x :: post)) (.arr (pre ++ y :: post))
  | member {x y : Raw} (k : Bytes) (pre post : List (Bytes × Raw)) (h : Reorder x y) :
      Reorder (.obj (pre ++ (k, x) :: post)) (.obj (pre ++ (k, y) :: post))

open Spec

theorem Spec.Reorder.null_iff {a b : Raw} (h : Reorder a b) : a = .null ↔ b = .null := by
  induction h with
  | refl => rfl
  | trans _ _ h1 h2 => exact h1.trans h2
  | perm => simp
  | elem => simp
  | member => simp

/-! ### Ordered maps -/

theorem btInsert_perm {α : Type} {k : Str} {v : α} {l : List (Str × α)} (h : k ∉ l.map (·.1)) :
    (btInsert k v l).Perm ((k, v) :: l) := by
  induction l with
  | nil => exact .refl _
  | cons q r ih =>
    obtain ⟨k', v'⟩ := q
    simp only [List.map_cons, List.mem_cons, not_or] at h
    simp only [btInsert, if_neg h.1]
    split
    · exact .refl _
    · exact ((ih h.2).cons _).trans (.swap _ _ _)

theorem btOfList_perm {α : Type} {l : List (Str × α)} (h : (l.map (·.1)).Nodup) : (btOfList l).Perm l := by
  have key : ∀ (l m : List (Str × α)), ((m ++ l).map (·.1)).Nodup →
      (l.foldl (fun m kv => btInsert kv.1 kv.2 m) m).Perm (m ++ l) := by
    intro l
    induction l with
    | nil => intro m _; simp
    | cons p l ih =>
      intro m hm
      have hp : p.1 ∉ m.map (·.1) := by
        intro hc
        rw [List.map_append] at hm
        exact (List.nodup_append.mp hm).2.2 _ hc p.1 (by simp) rfl
      have hi := btInsert_perm (v := p.2) hp
      rw [List.foldl_cons]
      have hn : ((btInsert p.1 p.2 m ++ l).map (·.1)).Nodup := by
        have : (btInsert p.1 p.2 m ++ l).Perm (m ++ p :: l) :=
          (hi.append_right l).trans (List.perm_middle (l₁ := m) (l₂ := l) (a := p)).symm
        exact (this.map _).nodup_iff.mpr hm
      exact (ih _ hn).trans ((hi.append_right l).trans (List.perm_middle (l₁ := m) (l₂ := l) (a := p)).symm)
  have := key l [] (by simpa using h)
  rw [List.nil_append] at this
  exact this

theorem btOfList_of_perm {α : Type} {l l' : List (Str × α)} (hp : l.Perm l') (h : (l.map (·.1)).Nodup) :
    btOfList l = btOfList l' := by
  refine Json.eq_of_perm_keysSorted (btOfList_sorted l) (btOfList_sorted l') ?_
  exact (btOfList_perm h).trans (hp.trans (btOfList_perm ((hp.map _).nodup_iff.mp h)).symm)

/-! ### Values -/

section
variable {F : Type} {fr : Bytes → Option F}

/-- Members read one by one. -/
theorem decMembers_eq (d : Nat) (kvs : List (Bytes × Raw)) :
    decMembers fr d kvs =
      optAll (fun kv => match decStr kv.1 with
        | none => none
        | some k => match decValue fr d kv.2 with
          | none => none
          | some y => some (k, y)) kvs := by
  induction kvs with
  | nil => simp [decMembers, optAll]
  | cons x kvs ih =>
    obtain ⟨k, v⟩ := x
    simp only [decMembers, optAll, ih]
    cases decStr k with
    | none => rfl
    | some k' =>
      cases decValue fr d v with
      | none => rfl
      | some y => simp only; split <;> rename_i hx <;> simp only [hx]

theorem decValues_eq (d : Nat) (xs : List Raw) : decValues fr d xs = optAll (decValue fr d) xs := by
  induction xs with
  | nil => simp [decValues, optAll]
  | cons x xs ih =>
    simp only [decValues, optAll, ih]
    cases decValue fr d x with
    | none => rfl
    | some y => simp only; split <;> rename_i hx <;> simp only [hx]

theorem optAll_perm {α β : Type} {f : α → Option β} {l l' : List α} (hp : l.Perm l') :
    (optAll f l = none ∧ optAll f l' = none) ∨
      ∃ r r', optAll f l = some r ∧ optAll f l' = some r' ∧ r.Perm r' := by
  induction hp with
  | nil => exact .inr ⟨[], [], rfl, rfl, .refl _⟩
  | cons x _ ih =>
    simp only [optAll]
    cases hx : f x with
    | none => exact .inl ⟨rfl, rfl⟩
    | some y =>
      rcases ih with ⟨h1, h2⟩ | ⟨r, r', h1, h2, h3⟩
      · rw [h1, h2]; exact .inl ⟨rfl, rfl⟩
      · rw [h1, h2]; exact .inr ⟨_, _, rfl, rfl, h3.cons y⟩
  | swap x y l =>
    simp only [optAll]
    cases hx : f x <;> cases hy : f y <;> cases hl : optAll f l <;> simp [List.Perm.swap]
  | trans _ _ h1 h2 =>
    rcases h1 with ⟨a1, a2⟩ | ⟨r, r', a1, a2, a3⟩
    · rcases h2 with ⟨b1, b2⟩ | ⟨s, s', b1, b2, b3⟩
      · exact .inl ⟨a1, b2⟩
      · rw [a2] at b1; cases b1
    · rcases h2 with ⟨b1, b2⟩ | ⟨s, s', b1, b2, b3⟩
      · rw [a2] at b1; cases b1
      · rw [a2] at b1; cases b1
        exact .inr ⟨_, _, a1, b2, a3.trans b3⟩

theorem optAll_congr_mid {α β : Type} {f : α → Option β} (pre post : List α) {x y : α} (h : f x = f y) :
    optAll f (pre ++ x :: post) = optAll f (pre ++ y :: post) := by
  induction pre with
  | nil => simp [optAll, h]
  | cons a pre ih => simp only [List.cons_append, optAll, ih]

theorem decMembers_names {d : Nat} {kvs : List (Bytes × Raw)} {l : List (Str × Json (Num F))}
    (h : decMembers fr d kvs = some l) : l.map (·.1) = memberNames kvs := by
  induction kvs generalizing l with
  | nil => simp only [decMembers, Option.some.injEq] at h; subst h; rfl
  | cons x kvs ih =>
    obtain ⟨k, v⟩ := x
    simp only [decMembers] at h
    split at h
    · cases h
    · rename_i k' hk
      split at h
      · cases h
      · split at h
        · cases h
        · rename_i ys hys
          cases h
          simp [memberNames, hk, ih hys]

theorem decValue_reorder {a b : Raw} (h : Reorder a b) : ∀ d, decValue fr d a = decValue fr d b := by
  induction h with
  | refl => intro d; rfl
  | trans _ _ h1 h2 => intro d; exact (h1 d).trans (h2 d)
  | @perm kvs kvs' hp hn =>
    intro d
    simp only [decValue]
    split
    · rfl
    · rcases optAll_perm (f := fun kv : Bytes × Raw => match decStr kv.1 with
        | none => none
        | some k => match decValue fr (d - 1) kv.2 with
          | none => none
          | some y => some (k, y)) hp with ⟨h1, h2⟩ | ⟨r, r', h1, h2, h3⟩
      · rw [decMembers_eq, decMembers_eq, h1, h2]
      · have e := decMembers_names (fr := fr) (d := d - 1) (kvs := kvs) (l := r) (by rw [decMembers_eq, h1])
        rw [decMembers_eq, decMembers_eq, h1, h2]
        simp only [Option.map_some, Option.some.injEq, Json.obj.injEq]
        exact btOfList_of_perm h3 (by rw [e]; exact hn)
  | elem pre post _ ih =>
    intro d
    simp only [decValue, decValues_eq]
    rw [optAll_congr_mid pre post (ih (d - 1))]
  | member k pre post _ ih =>
    intro d
    simp only [decValue, decMembers_eq]
    split
    · rfl
    · refine congrArg _ (optAll_congr_mid pre post ?_)
      simp only [ih (d - 1)]

end

theorem decVal'_map (E : Env) (d : Nat) (r : Raw) : (decVal' E d r).map Subtype.val = decValue E.floatParse d r := by
  unfold decVal'
  split <;> simp_all

theorem decVal'_congr {E : Env} {d : Nat} {a b : Raw} (h : decValue E.floatParse d a = decValue E.floatParse d b) :
    decVal' E d a = decVal' E d b := by
  rw [← decVal'_map, ← decVal'_map] at h
  exact Option.map_injective Subtype.val_injective h

/-! ### Struct readers -/

/-- The known members with their names. -/
def Spec.knownMembers (known : List Str) (kvs : List (Bytes × Raw)) : List (Str × Raw) :=
  kvs.filterMap fun kv => (decStr kv.1).bind fun n => if n ∈ known then some (n, kv.2) else none

/-- What `collectFields` accepts and returns. -/
theorem collectFields_iff (known : List Str) (kvs : List (Bytes × Raw)) (acc fs : List (Str × Raw))
    (hacc : (acc.map (·.1)).Nodup) :
    collectFields known acc kvs = some fs ↔
      (∀ kv ∈ kvs, (decStr kv.1).isSome) ∧ ((acc ++ knownMembers known kvs).map (·.1)).Nodup ∧
      fs = acc ++ knownMembers known kvs := by
  induction kvs generalizing acc with
  | nil =>
    simp only [collectFields, knownMembers, List.filterMap_nil, List.append_nil, Option.some.injEq]
    constructor
    · intro h; exact ⟨by simp, hacc, h.symm⟩
    · intro h; exact h.2.2.symm
  | cons x kvs ih =>
    obtain ⟨k, v⟩ := x
    simp only [collectFields]
    cases hk : decStr k with
    | none =>
      simp only [reduceCtorEq, false_iff, not_and]
      intro h
      have := h (k, v) (by simp)
      simp [hk] at this
    | some n =>
      simp only
      by_cases hm : n ∈ known
      · have e : knownMembers known ((k, v) :: kvs) = (n, v) :: knownMembers known kvs := by
          simp [knownMembers, hk, hm]
        rw [if_pos hm, e]
        by_cases hl : (acc.lookup n).isSome
        · rw [if_pos hl]
          simp only [reduceCtorEq, false_iff, not_and]
          intro _ hnd
          exfalso
          obtain ⟨w, hw⟩ := Option.isSome_iff_exists.mp hl
          have hmem : n ∈ acc.map (·.1) := by
            obtain ⟨l₁, l₂, h, _⟩ := List.lookup_eq_some_iff.mp hw
            rw [h]; simp
          rw [List.map_append] at hnd
          exact (List.nodup_append.mp hnd).2.2 n hmem n (by simp) rfl
        · rw [if_neg hl]
          have hnot : n ∉ acc.map (·.1) := by
            intro hc
            apply hl
            obtain ⟨q, hq, rfl⟩ := List.mem_map.mp hc
            cases hx : acc.lookup q.1 with
            | some _ => rfl
            | none =>
              have := (List.lookup_eq_none_iff.mp hx) q hq
              simp at this
          rw [ih]
          · simp [hk]
          · rw [List.map_append, List.nodup_append]
            refine ⟨hacc, by simp, ?_⟩
            intro a ha b hb hab
            simp at hb
            subst hb; subst hab
            exact hnot ha
      · have e : knownMembers known ((k, v) :: kvs) = knownMembers known kvs := by
          simp [knownMembers, hk, hm]
        rw [if_neg hm, e, ih acc hacc]
        simp [hk]

/-- Field lists that agree up to reordering inside the values. -/
def FieldsEquiv (fs fs' : List (Str × Raw)) : Prop :=
  ∀ k, (fs.lookup k = none ∧ fs'.lookup k = none) ∨
    ∃ a b, fs.lookup k = some a ∧ fs'.lookup k = some b ∧ Reorder a b

theorem FieldsEquiv.refl (fs : List (Str × Raw)) : FieldsEquiv fs fs := by
  intro k
  cases h : fs.lookup k with
  | none => exact .inl ⟨rfl, rfl⟩
  | some a => exact .inr ⟨a, a, rfl, rfl, .refl a⟩

theorem FieldsEquiv.trans {a b c : List (Str × Raw)} (h1 : FieldsEquiv a b) (h2 : FieldsEquiv b c) :
    FieldsEquiv a c := by
  intro k
  rcases h1 k with ⟨x, y⟩ | ⟨u, v, x, y, z⟩
  · rcases h2 k with ⟨x', y'⟩ | ⟨u', v', x', y', z'⟩
    · exact .inl ⟨x, y'⟩
    · rw [y] at x'; cases x'
  · rcases h2 k with ⟨x', y'⟩ | ⟨u', v', x', y', z'⟩
    · rw [y] at x'; cases x'
    · rw [y] at x'; cases x'
      exact .inr ⟨_, _, x, y', z.trans z'⟩

theorem FieldsEquiv.cons {a b : List (Str × Raw)} (k : Str) {x y : Raw} (h : Reorder x y) (h1 : FieldsEquiv a b) :
    FieldsEquiv ((k, x) :: a) ((k, y) :: b) := by
  intro n
  simp only [List.lookup]
  cases n == k
  · exact h1 n
  · exact .inr ⟨x, y, rfl, rfl, h⟩

theorem FieldsEquiv.append_mid (pre post : List (Str × Raw)) (k : Str) {x y : Raw} (h : Reorder x y) :
    FieldsEquiv (pre ++ (k, x) :: post) (pre ++ (k, y) :: post) := by
  induction pre with
  | nil => exact FieldsEquiv.cons k h (.refl _)
  | cons p pre ih => exact FieldsEquiv.cons p.1 (.refl _) ih

theorem lookup_mem_iff {α : Type} {l : List (Str × α)} (hn : (l.map (·.1)).Nodup) (k : Str) (v : α) :
    l.lookup k = some v ↔ (k, v) ∈ l := by
  induction l with
  | nil => simp
  | cons p l ih =>
    obtain ⟨k', v'⟩ := p
    simp only [List.map_cons, List.nodup_cons] at hn
    simp only [List.lookup]
    by_cases h : k = k'
    · subst h
      simp only [beq_self_eq_true, Option.some.injEq, List.mem_cons, Prod.mk.injEq, true_and]
      constructor
      · rintro rfl; exact .inl rfl
      · rintro (h | h)
        · exact h.symm
        · exact absurd (List.mem_map_of_mem (f := (·.1)) h) hn.1
    · rw [show (k == k') = false by simpa using h]
      simp only [ih hn.2, List.mem_cons, Prod.mk.injEq, h, false_and, false_or]

theorem lookup_perm {α : Type} {l l' : List (Str × α)} (hp : l.Perm l') (hn : (l.map (·.1)).Nodup) (k : Str) :
    l.lookup k = l'.lookup k := by
  have hn' := (hp.map (·.1)).nodup_iff.mp hn
  cases h : l.lookup k with
  | some v => exact ((lookup_mem_iff hn' k v).mpr (hp.mem_iff.mp ((lookup_mem_iff hn k v).mp h))).symm
  | none =>
    cases h' : l'.lookup k with
    | none => rfl
    | some v =>
      rw [(lookup_mem_iff hn k v).mpr (hp.mem_iff.mpr ((lookup_mem_iff hn' k v).mp h'))] at h
      cases h

theorem FieldsEquiv.of_perm {l l' : List (Str × Raw)} (hp : l.Perm l') (hn : (l.map (·.1)).Nodup) :
    FieldsEquiv l l' := by
  intro k
  rw [lookup_perm hp hn k]
  exact FieldsEquiv.refl l' k

/-- Both readings of a struct fail, or both succeed with equivalent fields. -/
def StructEquiv (known : List Str) (d : Nat) (a b : Raw) : Prop :=
  (structFields known d a = none ∧ structFields known d b = none) ∨
    ∃ fs fs', structFields known d a = some fs ∧ structFields known d b = some fs' ∧ FieldsEquiv fs fs'

theorem structEquiv_refl (known : List Str) (d : Nat) (a : Raw) : StructEquiv known d a a := by
  cases h : structFields known d a with
  | none => exact .inl ⟨h, h⟩
  | some fs => exact .inr ⟨fs, fs, h, h, .refl fs⟩

theorem structEquiv_trans {known : List Str} {d : Nat} {a b c : Raw} (h1 : StructEquiv known d a b)
    (h2 : StructEquiv known d b c) : StructEquiv known d a c := by
  rcases h1 with ⟨x, y⟩ | ⟨u, v, x, y, z⟩
  · rcases h2 with ⟨x', y'⟩ | ⟨u', v', x', y', z'⟩
    · exact .inl ⟨x, y'⟩
    · rw [y] at x'; cases x'
  · rcases h2 with ⟨x', y'⟩ | ⟨u', v', x', y', z'⟩
    · rw [y] at x'; cases x'
    · rw [y] at x'; cases x'
      exact .inr ⟨_, _, x, y', z.trans z'⟩

/-- Comparison of two member lists through `collectFields_iff`. -/
theorem structEquiv_obj {known : List Str} {d : Nat} {kvs kvs' : List (Bytes × Raw)}
    (hdec : (∀ kv ∈ kvs, (decStr kv.1).isSome) ↔ (∀ kv ∈ kvs', (decStr kv.1).isSome))
    (hnod : ((knownMembers known kvs).map (·.1)).Nodup ↔ ((knownMembers known kvs').map (·.1)).Nodup)
    (heq : ((knownMembers known kvs).map (·.1)).Nodup →
      FieldsEquiv (knownMembers known kvs) (knownMembers known kvs')) :
    StructEquiv known d (.obj kvs) (.obj kvs') := by
  unfold StructEquiv
  simp only [structFields]
  by_cases hd : d ≤ 1
  · rw [if_pos hd, if_pos hd]; exact .inl ⟨rfl, rfl⟩
  rw [if_neg hd, if_neg hd]
  cases h : collectFields known [] kvs with
  | some fs =>
    obtain ⟨h1, h2, h3⟩ := (collectFields_iff known kvs [] fs (by simp)).mp h
    simp only [List.nil_append] at h2 h3
    refine .inr ⟨fs, knownMembers known kvs', rfl, ?_, ?_⟩
    · exact (collectFields_iff known kvs' [] _ (by simp)).mpr ⟨hdec.mp h1, by simpa using hnod.mp h2, by simp⟩
    · rw [h3]; exact heq h2
  | none =>
    cases h' : collectFields known [] kvs' with
    | none => exact .inl ⟨rfl, rfl⟩
    | some fs =>
      obtain ⟨h1, h2, h3⟩ := (collectFields_iff known kvs' [] fs (by simp)).mp h'
      simp only [List.nil_append] at h2 h3
      have := (collectFields_iff known kvs [] _ (by simp)).mpr
        ⟨hdec.mpr h1, by simpa using hnod.mpr h2, rfl⟩
      rw [h] at this; cases this

theorem zip_mid (known : List Str) (pre post : List Raw) {x y : Raw} (h : Reorder x y) :
    FieldsEquiv (known.zip (pre ++ x :: post)) (known.zip (pre ++ y :: post)) := by
  induction pre generalizing known with
  | nil =>
    cases known with
    | nil => exact .refl _
    | cons k ks => exact FieldsEquiv.cons k h (.refl _)
  | cons p pre ih =>
    cases known with
    | nil => exact .refl _
    | cons k ks => exact FieldsEquiv.cons k (.refl _) (ih ks)

theorem knownMembers_names_sub (known : List Str) (kvs : List (Bytes × Raw)) :
    ((knownMembers known kvs).map (·.1)).Sublist (memberNames kvs) := by
  induction kvs with
  | nil => simp [knownMembers, memberNames]
  | cons x kvs ih =>
    obtain ⟨k, v⟩ := x
    cases hk : decStr k with
    | none => simpa [knownMembers, memberNames, hk] using ih
    | some n =>
      by_cases hm : n ∈ known
      · simpa [knownMembers, memberNames, hk, hm] using ih
      · simpa [knownMembers, memberNames, hk, hm] using ih.cons n

theorem structFields_reorder {a b : Raw} (h : Reorder a b) (known : List Str) (d : Nat) : StructEquiv known d a b := by
  induction h with
  | refl r => exact structEquiv_refl _ _ r
  | trans _ _ h1 h2 => exact structEquiv_trans h1 h2
  | @perm kvs kvs' hp hn =>
    have hp' : (knownMembers known kvs).Perm (knownMembers known kvs') := hp.filterMap _
    refine structEquiv_obj ?_ ?_ ?_
    · constructor
      · intro h kv hkv; exact h kv (hp.mem_iff.mpr hkv)
      · intro h kv hkv; exact h kv (hp.mem_iff.mp hkv)
    · exact (hp'.map _).nodup_iff
    · intro hnd; exact .of_perm hp' hnd
  | @elem x y pre post h _ =>
    unfold StructEquiv
    simp only [structFields, List.length_append, List.length_cons]
    by_cases hd : d ≤ 1
    · rw [if_pos hd, if_pos hd]; exact .inl ⟨rfl, rfl⟩
    · rw [if_neg hd, if_neg hd]
      split
      · exact .inr ⟨_, _, rfl, rfl, zip_mid known pre post h⟩
      · exact .inl ⟨rfl, rfl⟩
  | @member x y k pre post h _ =>
    have key : ∀ z : Raw, knownMembers known (pre ++ (k, z) :: post) =
        knownMembers known pre ++ ((decStr k).bind fun n => if n ∈ known then some (n, z) else none).toList ++
          knownMembers known post := by
      intro z
      simp only [knownMembers, List.filterMap_append, List.filterMap_cons]
      cases (decStr k).bind fun n => if n ∈ known then some (n, z) else none <;> simp
    cases hc : decStr k with
    | none =>
      simp only [hc, Option.bind_none, Option.toList_none] at key
      refine structEquiv_obj ?_ ?_ ?_
      · simp only [List.forall_mem_append, List.forall_mem_cons]
      · rw [key, key]
      · intro _; rw [key, key]; exact .refl _
    | some n =>
      simp only [hc, Option.bind_some] at key
      refine structEquiv_obj ?_ ?_ ?_
      · simp only [List.forall_mem_append, List.forall_mem_cons]
      · rw [key, key]
        split <;> simp
      · intro _
        rw [key, key]
        split
        · simp only [Option.toList_some, List.append_assoc, List.singleton_append]
          exact .append_mid _ _ n h
        · exact .refl _

/-! ### Reader congruence -/

/-- The reader does not see the order of members. -/
def Resp {α : Type} (f : Raw → Option α) : Prop := ∀ a b, Reorder a b → f a = f b

theorem reqField_congr {α : Type} {fs fs' : List (Str × Raw)} (h : FieldsEquiv fs fs') (k : Str) {f : Raw → Option α}
    (hf : Resp f) : reqField fs k f = reqField fs' k f := by
  unfold reqField
  rcases h k with ⟨x, y⟩ | ⟨u, v, x, y, z⟩
  · rw [x, y]
  · rw [x, y]; exact hf _ _ z

theorem optField_some {α : Type} {fs : List (Str × Raw)} {k : Str} (f : Raw → Option α) {w : Raw}
    (h : fs.lookup k = some w) (hw : w ≠ .null) : optField fs k f = (f w).map some := by
  unfold optField
  rw [h]
  cases w <;> first | rfl | exact absurd rfl hw

theorem optField_congr {α : Type} {fs fs' : List (Str × Raw)} (h : FieldsEquiv fs fs') (k : Str) {f : Raw → Option α}
    (hf : Resp f) : optField fs k f = optField fs' k f := by
  rcases h k with ⟨x, y⟩ | ⟨u, v, x, y, z⟩
  · unfold optField; rw [x, y]
  · by_cases hu : u = .null
    · have hv := z.null_iff.mp hu
      subst hu; subst hv
      unfold optField; rw [x, y]
    · rw [optField_some f x hu, optField_some f y (fun e => hu (z.null_iff.mpr e)), hf _ _ z]

theorem decString_resp : Resp decString := by
  intro a b h
  induction h with
  | refl => rfl
  | trans _ _ h1 h2 => exact h1.trans h2
  | perm => rfl
  | elem => rfl
  | member => rfl

theorem decVec_resp {α : Type} {f : Nat → Raw → Option α} (d : Nat) (hf : ∀ d, Resp (f d)) : Resp (decVec f d) := by
  intro a b h
  induction h with
  | refl => rfl
  | trans _ _ h1 h2 => exact h1.trans h2
  | perm => rfl
  | elem pre post h _ => simp only [decVec, optAll_congr_mid pre post (hf (d - 1) _ _ h)]
  | member => rfl

theorem decVal'_resp (E : Env) (d : Nat) : Resp (decVal' E d) := fun _ _ h => decVal'_congr (decValue_reorder h d)

theorem purpose_resp (d : Nat) : Resp (ProofPurpose.dec d) := by
  intro a b h
  induction h with
  | refl => rfl
  | trans _ _ h1 h2 => exact h1.trans h2
  | @perm kvs kvs' hp _ =>
    match kvs, kvs', hp with
    | [], l, hp => rw [List.nil_perm.mp hp]
    | [x], l, hp => rw [List.singleton_perm.mp hp]
    | x :: y :: r, [], hp => cases hp.length_eq
    | x :: y :: r, [z], hp => cases hp.length_eq
    | x :: y :: r, z :: w :: s, _ => simp [ProofPurpose.dec]
  | elem => rfl
  | @member x y k pre post h _ =>
    match pre, post with
    | [], [] =>
      have := h.null_iff
      by_cases hx : x = .null
      · rw [hx, this.mp hx]
      · have hy : y ≠ .null := fun e => hx (this.mpr e)
        have e : ∀ w : Raw, w ≠ .null → ProofPurpose.dec d (.obj [(k, w)]) = none := by
          intro w hw; cases w <;> first | rfl | exact absurd rfl hw
        simp only [List.nil_append]
        rw [e x hx, e y hy]
    | [], p :: q => simp [ProofPurpose.dec]
    | [p], q => simp [ProofPurpose.dec]
    | p :: p' :: q, r => simp [ProofPurpose.dec]

theorem structDec_resp {α : Type} {known : List Str} {d : Nat} {g : List (Str × Raw) → Option α}
    (hg : ∀ fs fs', FieldsEquiv fs fs' → g fs = g fs') :
    Resp fun r => match structFields known d r with
      | none => none
      | some fs => g fs := by
  intro a b h
  rcases structFields_reorder h known d with ⟨x, y⟩ | ⟨u, v, x, y, z⟩
  · simp only [x, y]
  · simp only [x, y]; exact hg _ _ z

theorem Proof.dec_resp (d : Nat) : Resp (Proof.dec d) := by
  refine structDec_resp ?_
  intro fs fs' h
  simp only [reqField_congr h _ decString_resp, reqField_congr h _ (purpose_resp _), optField_congr h _ decString_resp]

theorem Primary.dec_resp (d : Nat) : Resp (Primary.dec d) := by
  refine structDec_resp ?_
  intro fs fs' h
  simp only [reqField_congr h _ decString_resp]

theorem Doc.dec_resp (d : Nat) : Resp (Doc.dec d) := by
  refine structDec_resp ?_
  intro fs fs' h
  simp only [reqField_congr h _ decString_resp, reqField_congr h _ (decVec_resp _ fun _ => decString_resp),
    optField_congr h _ (decVec_resp _ Primary.dec_resp)]

theorem VC.dec_resp (E : Env) (d : Nat) : Resp (VC.dec E d) := by
  refine structDec_resp ?_
  intro fs fs' h
  simp only [reqField_congr h _ decString_resp, reqField_congr h _ (decVec_resp _ fun _ => decString_resp),
    reqField_congr h _ (decVal'_resp E _), optField_congr h _ (Proof.dec_resp _)]

theorem VP.dec_resp (E : Env) (d : Nat) : Resp (VP.dec E d) := by
  refine structDec_resp ?_
  intro fs fs' h
  simp only [reqField_congr h _ (decVec_resp _ fun _ => decString_resp),
    reqField_congr h _ (decVec_resp _ (VC.dec_resp E)), optField_congr h _ (Proof.dec_resp _),
    optField_congr h _ decString_resp]

/-! ### Unknown, repeated and missing members -/

theorem knownMembers_insert {known : List Str} (pre post : List (Bytes × Raw)) {k : Bytes} {n : Str} (x : Raw)
    (hk : decStr k = some n) (hn : n ∉ known) :
    knownMembers known (pre ++ (k, x) :: post) = knownMembers known (pre ++ post) := by
  simp [knownMembers, List.filterMap_append, hk, hn]

theorem structEquiv_insert {known : List Str} {d : Nat} (pre post : List (Bytes × Raw)) {k : Bytes} {n : Str} (x : Raw)
    (hk : decStr k = some n) (hn : n ∉ known) :
    structFields known d (.obj (pre ++ (k, x) :: post)) = structFields known d (.obj (pre ++ post)) := by
  have e := knownMembers_insert pre post x hk hn
  simp only [structFields]
  by_cases hd : d ≤ 1
  · rw [if_pos hd, if_pos hd]
  rw [if_neg hd, if_neg hd]
  have key : ∀ fs, collectFields known [] (pre ++ (k, x) :: post) = some fs ↔
      collectFields known [] (pre ++ post) = some fs := by
    intro fs
    rw [collectFields_iff _ _ _ _ (by simp), collectFields_iff _ _ _ _ (by simp), e]
    have : (∀ kv ∈ pre ++ (k, x) :: post, (decStr kv.1).isSome = true) ↔
        ∀ kv ∈ pre ++ post, (decStr kv.1).isSome = true := by
      simp only [List.forall_mem_append, List.forall_mem_cons, hk, Option.isSome_some, true_and]
    rw [this]
  exact Option.ext key

theorem structFields_duplicate {known : List Str} {d : Nat} {pre mid post : List (Bytes × Raw)} {k k' : Bytes}
    {x y : Raw} {n : Str} (hk : decStr k = some n) (hk' : decStr k' = some n) (hn : n ∈ known) :
    structFields known d (.obj (pre ++ (k, x) :: (mid ++ (k', y) :: post))) = none := by
  simp only [structFields]
  split
  · rfl
  · cases h : collectFields known [] (pre ++ (k, x) :: (mid ++ (k', y) :: post)) with
    | none => rfl
    | some fs =>
      obtain ⟨_, h2, _⟩ := (collectFields_iff _ _ _ _ (by simp)).mp h
      exfalso
      simp only [knownMembers, List.nil_append, List.filterMap_append, List.filterMap_cons, hk, hk',
        Option.bind_some, hn, if_true, List.map_append, List.map_cons] at h2
      have h3 := (List.nodup_append.mp h2).2.1
      rw [List.nodup_cons] at h3
      exact h3.1 (by simp)

theorem structFields_missing {known : List Str} {d : Nat} {kvs : List (Bytes × Raw)} {n : Str} {fs : List (Str × Raw)}
    (h : structFields known d (.obj kvs) = some fs) (hm : ∀ kv ∈ kvs, decStr kv.1 ≠ some n) : fs.lookup n = none := by
  simp only [structFields] at h
  split at h
  · cases h
  · obtain ⟨_, _, h3⟩ := (collectFields_iff _ _ _ _ (by simp)).mp h
    rw [List.nil_append] at h3
    rw [h3, List.lookup_eq_none_iff]
    intro p hp
    simp only [knownMembers, List.mem_filterMap] at hp
    obtain ⟨kv, hkv, he⟩ := hp
    cases hd : decStr kv.1 with
    | none => simp [hd] at he
    | some m =>
      rw [hd, Option.bind_some] at he
      split at he
      · cases he
        have hne : m ≠ n := fun e => hm kv hkv (by rw [hd, e])
        simpa using hne.symm
      · cases he

theorem reqField_missing {α : Type} {fs : List (Str × Raw)} {n : Str} (f : Raw → Option α) (h : fs.lookup n = none) :
    reqField fs n f = none := by
  unfold reqField; rw [h]

theorem VC.dec_some {E : Env} {d : Nat} {r : Raw} {v : VC E} (h : VC.dec E d r = some v) :
    ∃ fs, structFields VC.fieldNames d r = some fs ∧
      reqField fs "@context".toList (decVec (fun _ => decString) (d - 1)) = some v.contexts ∧
      reqField fs "type".toList (decVec (fun _ => decString) (d - 1)) = some v.types ∧
      reqField fs "credentialSubject".toList (decVal' E (d - 1)) = some v.credentialSubject ∧
      optField fs "proof".toList (Proof.dec (d - 1)) = some v.proof ∧
      reqField fs "id".toList decString = some v.id ∧ reqField fs "issuer".toList decString = some v.issuer := by
  unfold VC.dec at h
  split at h
  · cases h
  · rename_i fs hfs
    refine ⟨fs, hfs, ?_⟩
    simp only [bind, Option.bind_eq_some_iff, Option.some.injEq] at h
    obtain ⟨a, ha, b, hb, c, hc, p, hp, i, hi, j, hj, rfl⟩ := h
    exact ⟨ha, hb, hc, hp, hi, hj⟩

theorem VP.dec_some {E : Env} {d : Nat} {r : Raw} {v : VP E} (h : VP.dec E d r = some v) :
    ∃ fs, structFields VP.fieldNames d r = some fs ∧
      reqField fs "@context".toList (decVec (fun _ => decString) (d - 1)) = some v.contexts ∧
      reqField fs "type".toList (decVec (fun _ => decString) (d - 1)) = some v.types ∧
      reqField fs "verifiableCredential".toList (decVec (VC.dec E) (d - 1)) = some v.verifiableCredential ∧
      optField fs "proof".toList (Proof.dec (d - 1)) = some v.proof ∧
      optField fs "holder".toList decString = some v.holder := by
  unfold VP.dec at h
  split at h
  · cases h
  · rename_i fs hfs
    refine ⟨fs, hfs, ?_⟩
    simp only [bind, Option.bind_eq_some_iff, Option.some.injEq] at h
    obtain ⟨a, ha, b, hb, c, hc, p, hp, i, hi, rfl⟩ := h
    exact ⟨ha, hb, hc, hp, hi⟩

end Verif
