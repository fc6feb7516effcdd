import Verif.Json.Str
import Verif.Codec.Multibase

/-
JSON values (`serde_json::Value`), their printing, and JCS canonicalisation (`serde_jcs`).

* `Json N` is a JSON value over a type `N` of numbers. A `serde_json::Value` is a `Json (Num F)` whose
  objects have their members in strictly increasing key order (`Json.Sorted`): the crate's default map is
  a `BTreeMap<String, Value>` (the `preserve_order` feature is off; the expected texts in the tests at
  core/src/verifiable/proof/transform.rs:173-180 show sorted members). Serialised structs are also
  `Json` trees, with members in declaration order.
* `Num F` is `serde_json::Number`: `u64`, negative `i64`, or a finite `f64` (type `F`, abstract).
-/

namespace Verif

/-- A JSON value with numbers in `N`. -/
inductive Json (N : Type) where
  | null
  | bool (b : Bool)
  | num (n : N)
  | str (s : Str)
  | arr (xs : List (Json N))
  | obj (kvs : List (Str × Json N))

instance {N : Type} : Inhabited (Json N) := ⟨.null⟩

/-- `serde_json::Number`. `neg k` is the integer `-(k+1)`. -/
inductive Num (F : Type) where
  | pos (n : Fin (2 ^ 64))
  | neg (k : Fin (2 ^ 63))
  | float (f : F)

namespace Json

variable {N M : Type}

mutual
/-- Apply a function to every number. -/
def mapNum (p : N → M) : Json N → Json M
  | .null => .null
  | .bool b => .bool b
  | .num n => .num (p n)
  | .str s => .str s
  | .arr xs => .arr (mapNumList p xs)
  | .obj kvs => .obj (mapNumMembers p kvs)
def mapNumList (p : N → M) : List (Json N) → List (Json M)
  | [] => []
  | x :: xs => mapNum p x :: mapNumList p xs
def mapNumMembers (p : N → M) : List (Str × Json N) → List (Str × Json M)
  | [] => []
  | (k, v) :: kvs => (k, mapNum p v) :: mapNumMembers p kvs
end

mutual
/-- Tokens of a value, numbers printed by `p`. -/
def toRaw (p : N → Bytes) : Json N → Raw
  | .null => .null
  | .bool b => .bool b
  | .num n => .num (p n)
  | .str s => .str (encStr s)
  | .arr xs => .arr (toRawList p xs)
  | .obj kvs => .obj (toRawMembers p kvs)
def toRawList (p : N → Bytes) : List (Json N) → List Raw
  | [] => []
  | x :: xs => toRaw p x :: toRawList p xs
def toRawMembers (p : N → Bytes) : List (Str × Json N) → List (Bytes × Raw)
  | [] => []
  | (k, v) :: kvs => (encStr k, toRaw p v) :: toRawMembers p kvs
end

/-- Order of members induced by an order of keys. -/
def memLe (le : Str → Str → Bool) (a b : Str × Json N) : Bool := le a.1 b.1

mutual
/-- Sort the members of every object by key (`serde_jcs`, for the key order `le`). -/
def canon (le : Str → Str → Bool) : Json N → Json N
  | .null => .null
  | .bool b => .bool b
  | .num n => .num n
  | .str s => .str s
  | .arr xs => .arr (canonList le xs)
  | .obj kvs => .obj ((canonMembers le kvs).mergeSort (memLe le))
def canonList (le : Str → Str → Bool) : List (Json N) → List (Json N)
  | [] => []
  | x :: xs => canon le x :: canonList le xs
def canonMembers (le : Str → Str → Bool) : List (Str × Json N) → List (Str × Json N)
  | [] => []
  | (k, v) :: kvs => (k, canon le v) :: canonMembers le kvs
end

/-- Canonical text (`serde_jcs::to_vec`): members sorted, numbers printed by `p`, compact. -/
def jcs (le : Str → Str → Bool) (p : N → Bytes) (j : Json N) : Bytes :=
  ((canon le j).toRaw p).render

/-- Compact text (`serde_json::to_vec`). -/
def text (p : N → Bytes) (j : Json N) : Bytes := (j.toRaw p).render

mutual
/-- Nesting depth in containers. -/
def depth : Json N → Nat
  | .arr xs => depthList xs + 1
  | .obj kvs => depthMembers kvs + 1
  | _ => 0
def depthList : List (Json N) → Nat
  | [] => 0
  | x :: xs => max (depth x) (depthList xs)
def depthMembers : List (Str × Json N) → Nat
  | [] => 0
  | (_, v) :: kvs => max (depth v) (depthMembers kvs)
end

mutual
/-- All numbers of a value. -/
def nums : Json N → List N
  | .num n => [n]
  | .arr xs => numsList xs
  | .obj kvs => numsMembers kvs
  | _ => []
def numsList : List (Json N) → List N
  | [] => []
  | x :: xs => nums x ++ numsList xs
def numsMembers : List (Str × Json N) → List N
  | [] => []
  | (_, v) :: kvs => nums v ++ numsMembers kvs
end

mutual
/-- A map that leaves the numbers of a value alone leaves the value alone, and conversely. -/
theorem mapNum_eq_self {p : N → N} (j : Json N) : mapNum p j = j ↔ ∀ n ∈ nums j, p n = n := by
  match j with
  | .null => simp [mapNum, nums]
  | .bool _ => simp [mapNum, nums]
  | .num _ => simp [mapNum, nums]
  | .str _ => simp [mapNum, nums]
  | .arr xs => simp only [mapNum, nums, Json.arr.injEq]; exact mapNumList_eq_self xs
  | .obj kvs => simp only [mapNum, nums, Json.obj.injEq]; exact mapNumMembers_eq_self kvs
theorem mapNumList_eq_self {p : N → N} (xs : List (Json N)) : mapNumList p xs = xs ↔ ∀ n ∈ numsList xs, p n = n := by
  match xs with
  | [] => simp [mapNumList, numsList]
  | x :: xs =>
    simp only [mapNumList, numsList, List.cons.injEq, List.mem_append, or_imp, forall_and]
    exact and_congr (mapNum_eq_self x) (mapNumList_eq_self xs)
theorem mapNumMembers_eq_self {p : N → N} (xs : List (Str × Json N)) :
    mapNumMembers p xs = xs ↔ ∀ n ∈ numsMembers xs, p n = n := by
  match xs with
  | [] => simp [mapNumMembers, numsMembers]
  | (k, x) :: xs =>
    simp only [mapNumMembers, numsMembers, List.cons.injEq, Prod.mk.injEq, true_and, List.mem_append, or_imp, forall_and]
    exact and_congr (mapNum_eq_self x) (mapNumMembers_eq_self xs)
end

mutual
theorem mapNum_congr {p q : N → M} (j : Json N) (h : ∀ n ∈ nums j, p n = q n) : mapNum p j = mapNum q j := by
  match j, h with
  | .null, _ => simp [mapNum]
  | .bool _, _ => simp [mapNum]
  | .num _, h => simpa [mapNum, nums] using h
  | .str _, _ => simp [mapNum]
  | .arr xs, h => simp only [mapNum, Json.arr.injEq]; exact mapNumList_congr xs (by simpa [nums] using h)
  | .obj kvs, h => simp only [mapNum, Json.obj.injEq]; exact mapNumMembers_congr kvs (by simpa [nums] using h)
theorem mapNumList_congr {p q : N → M} (xs : List (Json N)) (h : ∀ n ∈ numsList xs, p n = q n) :
    mapNumList p xs = mapNumList q xs := by
  match xs, h with
  | [], _ => simp [mapNumList]
  | x :: xs, h =>
    simp only [numsList, List.mem_append, or_imp, forall_and] at h
    simp only [mapNumList, mapNum_congr x h.1, mapNumList_congr xs h.2]
theorem mapNumMembers_congr {p q : N → M} (xs : List (Str × Json N)) (h : ∀ n ∈ numsMembers xs, p n = q n) :
    mapNumMembers p xs = mapNumMembers q xs := by
  match xs, h with
  | [], _ => simp [mapNumMembers]
  | (k, x) :: xs, h =>
    simp only [numsMembers, List.mem_append, or_imp, forall_and] at h
    simp only [mapNumMembers, mapNum_congr x h.1, mapNumMembers_congr xs h.2]
end

mutual
theorem mapNum_mapNum {O : Type} (p : N → M) (q : M → O) (j : Json N) : mapNum q (mapNum p j) = mapNum (q ∘ p) j := by
  match j with
  | .null => simp [mapNum]
  | .bool _ => simp [mapNum]
  | .num _ => simp [mapNum]
  | .str _ => simp [mapNum]
  | .arr xs => simp only [mapNum, mapNumList_mapNum p q xs]
  | .obj kvs => simp only [mapNum, mapNumMembers_mapNum p q kvs]
theorem mapNumList_mapNum {O : Type} (p : N → M) (q : M → O) (xs : List (Json N)) :
    mapNumList q (mapNumList p xs) = mapNumList (q ∘ p) xs := by
  match xs with
  | [] => simp [mapNumList]
  | x :: xs => simp only [mapNumList, mapNum_mapNum p q x, mapNumList_mapNum p q xs]
theorem mapNumMembers_mapNum {O : Type} (p : N → M) (q : M → O) (xs : List (Str × Json N)) :
    mapNumMembers q (mapNumMembers p xs) = mapNumMembers (q ∘ p) xs := by
  match xs with
  | [] => simp [mapNumMembers]
  | (k, x) :: xs => simp only [mapNumMembers, mapNum_mapNum p q x, mapNumMembers_mapNum p q xs]
end

end Json

/-! ### Order of strings in a `BTreeMap<String, _>` -/

/-- `Ord for String`: byte-wise on UTF-8, which is code-point-wise. -/
def strLt : Str → Str → Bool
  | _, [] => false
  | [], _ :: _ => true
  | a :: s, b :: t => a.toNat < b.toNat || (a == b && strLt s t)

theorem strLt_irrefl (s : Str) : strLt s s = false := by
  induction s with
  | nil => rfl
  | cons a s ih => simp [strLt, ih]

theorem strLt_trans {s t u : Str} (h1 : strLt s t = true) (h2 : strLt t u = true) : strLt s u = true := by
  induction s generalizing t u with
  | nil =>
    cases u with
    | nil => cases t <;> simp [strLt] at h2
    | cons => rfl
  | cons a s ih =>
    cases t with
    | nil => simp [strLt] at h1
    | cons b t =>
      cases u with
      | nil => simp [strLt] at h2
      | cons c u =>
        simp only [strLt, Bool.or_eq_true, decide_eq_true_eq, Bool.and_eq_true, beq_iff_eq] at *
        rcases h1 with h1 | ⟨rfl, h1⟩
        · rcases h2 with h2 | ⟨rfl, h2⟩
          · left; omega
          · left; exact h1
        · rcases h2 with h2 | ⟨rfl, h2⟩
          · left; exact h2
          · right; exact ⟨rfl, ih h1 h2⟩

theorem strLt_asymm {s t : Str} (h1 : strLt s t = true) : strLt t s = false := by
  cases h : strLt t s
  · rfl
  · have := strLt_trans h1 h
    rw [strLt_irrefl] at this
    cases this

theorem strLt_tri (s t : Str) : strLt s t = true ∨ s = t ∨ strLt t s = true := by
  induction s generalizing t with
  | nil => cases t <;> simp [strLt]
  | cons a s ih =>
    cases t with
    | nil => simp [strLt]
    | cons b t =>
      simp only [strLt, Bool.or_eq_true, decide_eq_true_eq, Bool.and_eq_true, beq_iff_eq, List.cons.injEq]
      rcases Nat.lt_trichotomy a.toNat b.toNat with h | h | h
      · exact Or.inl (Or.inl h)
      · have hab : a = b := by
          apply Char.ext
          apply UInt32.toNat_inj.mp
          exact h
        rcases ih t with h' | h' | h'
        · exact Or.inl (Or.inr ⟨hab, h'⟩)
        · exact Or.inr (Or.inl ⟨hab, h'⟩)
        · exact Or.inr (Or.inr (Or.inr ⟨hab.symm, h'⟩))
      · exact Or.inr (Or.inr (Or.inl h))

/-- Strictly increasing keys. -/
def KeysSorted {α : Type} (l : List (Str × α)) : Prop := l.Pairwise fun a b => strLt a.1 b.1 = true

theorem KeysSorted.nodup {α : Type} {l : List (Str × α)} (h : KeysSorted l) : (l.map (·.1)).Nodup := by
  refine List.pairwise_map.mpr (h.imp ?_)
  intro a b hab he
  rw [he, strLt_irrefl] at hab
  cases hab

/-- Insert into a `BTreeMap`: replaces the value of an existing key. -/
def btInsert {α : Type} (k : Str) (v : α) : List (Str × α) → List (Str × α)
  | [] => [(k, v)]
  | (k', v') :: r =>
    if k = k' then (k, v) :: r
    else if strLt k k' then (k, v) :: (k', v') :: r
    else (k', v') :: btInsert k v r

/-- `BTreeMap` from members in reading order. -/
def btOfList {α : Type} (l : List (Str × α)) : List (Str × α) :=
  l.foldl (fun m kv => btInsert kv.1 kv.2 m) []

theorem btInsert_mem {α : Type} {k : Str} {v : α} {l : List (Str × α)} {p : Str × α}
    (h : p ∈ btInsert k v l) : p = (k, v) ∨ p ∈ l := by
  induction l with
  | nil => simpa [btInsert] using h
  | cons q r ih =>
    obtain ⟨k', v'⟩ := q
    simp only [btInsert] at h
    split at h
    · simp at h; rcases h with h | h
      · exact Or.inl h
      · exact Or.inr (by simp [h])
    · split at h
      · simp at h; rcases h with h | h | h
        · exact Or.inl h
        · exact Or.inr (by simp [h])
        · exact Or.inr (by simp [h])
      · simp at h; rcases h with h | h
        · exact Or.inr (by simp [h])
        · rcases ih h with h | h
          · exact Or.inl h
          · exact Or.inr (by simp [h])

theorem btInsert_sorted {α : Type} {k : Str} {v : α} {l : List (Str × α)} (h : KeysSorted l) :
    KeysSorted (btInsert k v l) := by
  induction l with
  | nil => simp [btInsert, KeysSorted]
  | cons q r ih =>
    obtain ⟨k', v'⟩ := q
    obtain ⟨h1, h2⟩ := List.pairwise_cons.mp h
    simp only [btInsert]
    split
    · rename_i hk
      subst hk
      exact List.pairwise_cons.mpr ⟨h1, h2⟩
    · rename_i hk
      split
      · rename_i hlt
        refine List.pairwise_cons.mpr ⟨?_, h⟩
        intro p hp
        rcases List.mem_cons.mp hp with rfl | hp
        · exact hlt
        · exact strLt_trans hlt (h1 p hp)
      · rename_i hlt
        refine List.pairwise_cons.mpr ⟨?_, ih h2⟩
        intro p hp
        rcases btInsert_mem hp with rfl | hp
        · rcases strLt_tri k k' with h | h | h
          · exact absurd h hlt
          · exact absurd h hk
          · exact h
        · exact h1 p hp

theorem foldl_btInsert_sorted {α : Type} (l m : List (Str × α)) (h : KeysSorted m) :
    KeysSorted (l.foldl (fun m kv => btInsert kv.1 kv.2 m) m) := by
  induction l generalizing m with
  | nil => exact h
  | cons p l ih => exact ih _ (btInsert_sorted h)

/-- A `BTreeMap` is always in increasing key order. -/
theorem btOfList_sorted {α : Type} (l : List (Str × α)) : KeysSorted (btOfList l) :=
  foldl_btInsert_sorted l [] List.Pairwise.nil

theorem btInsert_end {α : Type} {k : Str} {v : α} {l : List (Str × α)}
    (h : ∀ p ∈ l, strLt p.1 k = true) : btInsert k v l = l ++ [(k, v)] := by
  induction l with
  | nil => rfl
  | cons q r ih =>
    obtain ⟨k', v'⟩ := q
    have h1 : strLt k' k = true := h (k', v') (by simp)
    have hne : k ≠ k' := by intro e; rw [e, strLt_irrefl] at h1; cases h1
    simp only [btInsert, if_neg hne, strLt_asymm h1, List.cons_append]
    rw [ih (fun p hp => h p (by simp [hp]))]
    rfl

theorem foldl_btInsert_eq {α : Type} (l m : List (Str × α)) (h : KeysSorted (m ++ l)) :
    l.foldl (fun m kv => btInsert kv.1 kv.2 m) m = m ++ l := by
  induction l generalizing m with
  | nil => simp
  | cons p l ih =>
    have h' : KeysSorted ((m ++ [p]) ++ l) := by simpa using h
    have : ∀ q ∈ m, strLt q.1 p.1 = true := by
      intro q hq
      exact (List.pairwise_append.mp h).2.2 q hq p (by simp)
    simp only [List.foldl_cons]
    rw [btInsert_end this, ih _ h']
    simp

/-- Reading members that are already in order changes nothing. -/
theorem btOfList_of_sorted {α : Type} {l : List (Str × α)} (h : KeysSorted l) : btOfList l = l := by
  simpa [btOfList] using foldl_btInsert_eq l [] (by simpa using h)

namespace Json
variable {N M : Type}

mutual
/-- Every object has strictly increasing keys: what a `serde_json::Value` satisfies. -/
def Sorted : Json N → Prop
  | .arr xs => SortedList xs
  | .obj kvs => KeysSorted kvs ∧ SortedMembers kvs
  | _ => True
def SortedList : List (Json N) → Prop
  | [] => True
  | x :: xs => Sorted x ∧ SortedList xs
def SortedMembers : List (Str × Json N) → Prop
  | [] => True
  | (_, v) :: kvs => Sorted v ∧ SortedMembers kvs
end

/-! ### List forms -/

theorem mapNumList_eq (p : N → M) (xs : List (Json N)) : mapNumList p xs = xs.map (mapNum p) := by
  induction xs with
  | nil => simp [mapNumList]
  | cons x xs ih => simp [mapNumList, ih]

theorem mapNumMembers_eq (p : N → M) (xs : List (Str × Json N)) :
    mapNumMembers p xs = xs.map fun kv => (kv.1, mapNum p kv.2) := by
  induction xs with
  | nil => simp [mapNumMembers]
  | cons x xs ih => simp [mapNumMembers, ih]

theorem toRawList_eq (p : N → Bytes) (xs : List (Json N)) : toRawList p xs = xs.map (toRaw p) := by
  induction xs with
  | nil => simp [toRawList]
  | cons x xs ih => simp [toRawList, ih]

theorem toRawMembers_eq (p : N → Bytes) (xs : List (Str × Json N)) :
    toRawMembers p xs = xs.map fun kv => (encStr kv.1, toRaw p kv.2) := by
  induction xs with
  | nil => simp [toRawMembers]
  | cons x xs ih => simp [toRawMembers, ih]

theorem canonList_eq (le : Str → Str → Bool) (xs : List (Json N)) : canonList le xs = xs.map (canon le) := by
  induction xs with
  | nil => simp [canonList]
  | cons x xs ih => simp [canonList, ih]

theorem canonMembers_eq (le : Str → Str → Bool) (xs : List (Str × Json N)) :
    canonMembers le xs = xs.map fun kv => (kv.1, canon le kv.2) := by
  induction xs with
  | nil => simp [canonMembers]
  | cons x xs ih => simp [canonMembers, ih]

theorem sortedList_iff (xs : List (Json N)) : SortedList xs ↔ ∀ x ∈ xs, Sorted x := by
  induction xs with
  | nil => simp [SortedList]
  | cons x xs ih => simp [SortedList, ih]

theorem sortedMembers_iff (xs : List (Str × Json N)) : SortedMembers xs ↔ ∀ x ∈ xs, Sorted x.2 := by
  induction xs with
  | nil => simp [SortedMembers]
  | cons x xs ih => simp [SortedMembers, ih]

theorem depthList_le_iff (xs : List (Json N)) (d : Nat) : depthList xs ≤ d ↔ ∀ x ∈ xs, depth x ≤ d := by
  induction xs with
  | nil => simp [depthList]
  | cons x xs ih => simp [depthList, ih]

theorem depthMembers_le_iff (xs : List (Str × Json N)) (d : Nat) :
    depthMembers xs ≤ d ↔ ∀ x ∈ xs, depth x.2 ≤ d := by
  induction xs with
  | nil => simp [depthMembers]
  | cons x xs ih => simp [depthMembers, ih]

/-! ### Printing -/

mutual
theorem toRaw_ok {p : N → Bytes} (hp : ∀ n, IsNumTok (p n)) (j : Json N) : (toRaw p j).Ok := by
  match j with
  | .null => simp [toRaw, Raw.Ok]
  | .bool b => simp [toRaw, Raw.Ok]
  | .num n => simpa [toRaw, Raw.Ok] using hp n
  | .str s => simpa [toRaw, Raw.Ok] using isStrTok_encStr s
  | .arr xs => simpa [toRaw, Raw.Ok] using toRawList_ok hp xs
  | .obj kvs => simpa [toRaw, Raw.Ok] using toRawMembers_ok hp kvs
theorem toRawList_ok {p : N → Bytes} (hp : ∀ n, IsNumTok (p n)) (xs : List (Json N)) :
    Raw.OkList (toRawList p xs) := by
  match xs with
  | [] => simp [toRawList, Raw.OkList]
  | x :: xs => simpa [toRawList, Raw.OkList] using ⟨toRaw_ok hp x, toRawList_ok hp xs⟩
theorem toRawMembers_ok {p : N → Bytes} (hp : ∀ n, IsNumTok (p n)) (kvs : List (Str × Json N)) :
    Raw.OkMembers (toRawMembers p kvs) := by
  match kvs with
  | [] => simp [toRawMembers, Raw.OkMembers]
  | (k, v) :: kvs =>
    simpa [toRawMembers, Raw.OkMembers] using ⟨isStrTok_encStr k, toRaw_ok hp v, toRawMembers_ok hp kvs⟩
end

mutual
/-- The tokens determine the value up to how numbers print. -/
theorem toRaw_inj {p : N → Bytes} (a b : Json N) (h : toRaw p a = toRaw p b) : mapNum p a = mapNum p b := by
  match a, b, h with
  | .null, b, h => cases b <;> simp [toRaw] at h; rfl
  | .bool x, b, h => cases b <;> simp [toRaw] at h; simp [mapNum, h]
  | .num x, b, h => cases b <;> simp [toRaw] at h; simp [mapNum, h]
  | .str x, b, h => cases b <;> simp [toRaw] at h; simp [mapNum, encStr_injective h]
  | .arr xs, b, h =>
    cases b <;> simp [toRaw] at h
    simp only [mapNum, toRawList_inj xs _ h]
  | .obj kvs, b, h =>
    cases b <;> simp [toRaw] at h
    simp only [mapNum, toRawMembers_inj kvs _ h]
theorem toRawList_inj {p : N → Bytes} (a b : List (Json N)) (h : toRawList p a = toRawList p b) :
    mapNumList p a = mapNumList p b := by
  match a, b, h with
  | [], b, h => cases b <;> simp [toRawList] at h; rfl
  | x :: xs, b, h =>
    cases b <;> simp [toRawList] at h
    simp only [mapNumList, toRaw_inj x _ h.1, toRawList_inj xs _ h.2]
theorem toRawMembers_inj {p : N → Bytes} (a b : List (Str × Json N))
    (h : toRawMembers p a = toRawMembers p b) : mapNumMembers p a = mapNumMembers p b := by
  match a, b, h with
  | [], b, h => cases b <;> simp [toRawMembers] at h; rfl
  | (k, v) :: kvs, b, h =>
    cases b <;> simp [toRawMembers] at h
    simp only [mapNumMembers, encStr_injective h.1.1, toRaw_inj v _ h.1.2, toRawMembers_inj kvs _ h.2]
end

/-! ### Canonical form -/

theorem map_mergeSort_key {α β : Type} (le : Str → Str → Bool) (f : α → β) (l : List (Str × α)) :
    (l.mergeSort fun a b => le a.1 b.1).map (fun kv => (kv.1, f kv.2)) =
      (l.map fun kv => (kv.1, f kv.2)).mergeSort fun a b => le a.1 b.1 := by
  apply List.map_mergeSort
  intros; rfl

mutual
theorem canon_mapNum (le : Str → Str → Bool) (p : N → M) (j : Json N) :
    canon le (mapNum p j) = mapNum p (canon le j) := by
  match j with
  | .null => simp [mapNum, canon]
  | .bool _ => simp [mapNum, canon]
  | .num _ => simp [mapNum, canon]
  | .str _ => simp [mapNum, canon]
  | .arr xs => simp only [mapNum, canon, canonList_mapNum le p xs]
  | .obj kvs =>
    simp only [mapNum, canon, canonMembers_mapNum le p kvs]
    rw [mapNumMembers_eq, mapNumMembers_eq]
    congr 1
    exact (map_mergeSort_key le (mapNum p) (canonMembers le kvs)).symm
theorem canonList_mapNum (le : Str → Str → Bool) (p : N → M) (xs : List (Json N)) :
    canonList le (mapNumList p xs) = mapNumList p (canonList le xs) := by
  match xs with
  | [] => simp [mapNumList, canonList]
  | x :: xs => simp only [mapNumList, canonList, canon_mapNum le p x, canonList_mapNum le p xs]
theorem canonMembers_mapNum (le : Str → Str → Bool) (p : N → M) (kvs : List (Str × Json N)) :
    canonMembers le (mapNumMembers p kvs) = mapNumMembers p (canonMembers le kvs) := by
  match kvs with
  | [] => simp [mapNumMembers, canonMembers]
  | (k, v) :: kvs =>
    simp only [mapNumMembers, canonMembers, canon_mapNum le p v, canonMembers_mapNum le p kvs]
end

theorem keysSorted_map {α β : Type} (f : α → β) {l : List (Str × α)} :
    KeysSorted (l.map fun kv => (kv.1, f kv.2)) ↔ KeysSorted l := by
  simp only [KeysSorted]
  rw [List.pairwise_map]

/-- Two lists with strictly increasing keys that are permutations of each other are equal. -/
theorem eq_of_perm_keysSorted {α : Type} {l l' : List (Str × α)} (h : KeysSorted l) (h' : KeysSorted l')
    (hp : l.Perm l') : l = l' := by
  refine hp.eq_of_pairwise ?_ h h'
  intro a b _ _ hab hba
  rw [strLt_asymm hab] at hba
  cases hba

mutual
/-- Canonicalisation loses nothing on `serde_json::Value`s. -/
theorem canon_inj_sorted (le : Str → Str → Bool) (a b : Json N) (ha : a.Sorted) (hb : b.Sorted)
    (h : canon le a = canon le b) : a = b := by
  match a, b, ha, hb, h with
  | .null, b, _, _, h => cases b <;> simp [canon] at h; rfl
  | .bool x, b, _, _, h => cases b <;> simp [canon] at h; simp [h]
  | .num x, b, _, _, h => cases b <;> simp [canon] at h; simp [h]
  | .str x, b, _, _, h => cases b <;> simp [canon] at h; simp [h]
  | .arr xs, b, ha, hb, h =>
    cases b <;> simp [canon] at h
    rw [canonList_inj_sorted le xs _ (by simpa [Sorted] using ha) (by simpa [Sorted] using hb) h]
  | .obj kvs, .obj kvs', ha, hb, h =>
    simp only [canon, Json.obj.injEq] at h
    simp only [Sorted] at ha hb
    have hp : (canonMembers le kvs).Perm (canonMembers le kvs') :=
      ((List.mergeSort_perm _ _).symm.trans (List.Perm.of_eq h)).trans (List.mergeSort_perm _ _)
    have he := eq_of_perm_keysSorted
      (by rw [canonMembers_eq]; exact (keysSorted_map _).mpr ha.1)
      (by rw [canonMembers_eq]; exact (keysSorted_map _).mpr hb.1) hp
    rw [canonMembers_inj_sorted le kvs kvs' ha.2 hb.2 he]
theorem canonList_inj_sorted (le : Str → Str → Bool) (a b : List (Json N)) (ha : SortedList a)
    (hb : SortedList b) (h : canonList le a = canonList le b) : a = b := by
  match a, b, ha, hb, h with
  | [], b, _, _, h => cases b <;> simp [canonList] at h; rfl
  | x :: xs, [], _, _, h => simp [canonList] at h
  | x :: xs, y :: ys, ha, hb, h =>
    simp only [canonList, List.cons.injEq] at h
    simp only [SortedList] at ha hb
    rw [canon_inj_sorted le x y ha.1 hb.1 h.1, canonList_inj_sorted le xs ys ha.2 hb.2 h.2]
theorem canonMembers_inj_sorted (le : Str → Str → Bool) (a b : List (Str × Json N)) (ha : SortedMembers a)
    (hb : SortedMembers b) (h : canonMembers le a = canonMembers le b) : a = b := by
  match a, b, ha, hb, h with
  | [], b, _, _, h => cases b <;> simp [canonMembers] at h; rfl
  | (k, v) :: xs, [], _, _, h => simp [canonMembers] at h
  | (k, v) :: xs, (k', v') :: ys, ha, hb, h =>
    simp only [canonMembers, List.cons.injEq, Prod.mk.injEq] at h
    simp only [SortedMembers] at ha hb
    rw [h.1.1, canon_inj_sorted le v v' ha.1 hb.1 h.1.2, canonMembers_inj_sorted le xs ys ha.2 hb.2 h.2]
end

mutual
theorem sorted_mapNum (p : N → M) (j : Json N) (h : j.Sorted) : (mapNum p j).Sorted := by
  match j, h with
  | .null, _ => simp [mapNum, Sorted]
  | .bool _, _ => simp [mapNum, Sorted]
  | .num _, _ => simp [mapNum, Sorted]
  | .str _, _ => simp [mapNum, Sorted]
  | .arr xs, h => simp only [mapNum, Sorted] at *; exact sortedList_mapNum p xs h
  | .obj kvs, h =>
    simp only [mapNum, Sorted] at *
    exact ⟨by rw [mapNumMembers_eq]; exact (keysSorted_map _).mpr h.1, sortedMembers_mapNum p kvs h.2⟩
theorem sortedList_mapNum (p : N → M) (xs : List (Json N)) (h : SortedList xs) :
    SortedList (mapNumList p xs) := by
  match xs, h with
  | [], _ => simp [mapNumList, SortedList]
  | x :: xs, h => simp only [mapNumList, SortedList] at *; exact ⟨sorted_mapNum p x h.1, sortedList_mapNum p xs h.2⟩
theorem sortedMembers_mapNum (p : N → M) (xs : List (Str × Json N)) (h : SortedMembers xs) :
    SortedMembers (mapNumMembers p xs) := by
  match xs, h with
  | [], _ => simp [mapNumMembers, SortedMembers]
  | (k, v) :: xs, h =>
    simp only [mapNumMembers, SortedMembers] at *
    exact ⟨sorted_mapNum p v h.1, sortedMembers_mapNum p xs h.2⟩
end

/-- Equal canonical texts come from values with equal canonical forms (up to number printing). -/
theorem jcs_inj {le : Str → Str → Bool} {p : N → Bytes} (hp : ∀ n, IsNumTok (p n)) {a b : Json N}
    (h : jcs le p a = jcs le p b) : canon le (mapNum p a) = canon le (mapNum p b) := by
  have := Raw.render_injective (toRaw_ok hp _) (toRaw_ok hp _) h
  rw [canon_mapNum, canon_mapNum]
  exact toRaw_inj _ _ this

/-- Objects with equal canonical forms and distinct keys agree member by member. -/
theorem canon_obj_lookup {le : Str → Str → Bool} {l l' : List (Str × Json N)}
    (hn : (l.map (·.1)).Nodup) (hn' : (l'.map (·.1)).Nodup)
    (h : canon le (.obj l) = canon le (.obj l')) (k : Str) :
    (l.lookup k).map (canon le) = (l'.lookup k).map (canon le) := by
  simp only [canon, Json.obj.injEq] at h
  have hp : (canonMembers le l).Perm (canonMembers le l') :=
    ((List.mergeSort_perm _ _).symm.trans (List.Perm.of_eq h)).trans (List.mergeSort_perm _ _)
  rw [canonMembers_eq, canonMembers_eq] at hp
  have key : ∀ (l : List (Str × Json N)), (l.map (·.1)).Nodup → ∀ v,
      (l.lookup k).map (canon le) = some v ↔ (k, v) ∈ l.map fun kv => (kv.1, canon le kv.2) := by
    intro l hn v
    induction l with
    | nil => simp
    | cons q r ih =>
      obtain ⟨k', w⟩ := q
      simp only [List.map_cons, List.nodup_cons] at hn
      simp only [List.lookup_cons, List.map_cons, List.mem_cons, Prod.mk.injEq]
      by_cases hk : k = k'
      · subst hk
        simp only [beq_self_eq_true, Option.map_some, Option.some.injEq, true_and]
        constructor
        · intro h; exact Or.inl h.symm
        · rintro (h | h)
          · exact h.symm
          · exfalso
            apply hn.1
            obtain ⟨p, hp, he⟩ := List.mem_map.mp h
            exact List.mem_map.mpr ⟨p, hp, by simpa using congrArg Prod.fst he⟩
      · have : (k == k') = false := by simpa using hk
        simp only [this, hk, false_and, false_or]
        exact ih hn.2
  apply Option.ext
  intro v
  rw [key l hn v, key l' hn' v]
  exact hp.mem_iff

/-- Canonical text does not depend on the order of members of an object with distinct keys. -/
theorem canon_obj_perm {le : Str → Str → Bool}
    (tot : ∀ a b, le a b = true ∨ le b a = true) (tr : ∀ a b c, le a b = true → le b c = true → le a c = true)
    (as : ∀ a b, le a b = true → le b a = true → a = b)
    {l l' : List (Str × Json N)} (hn : (l.map (·.1)).Nodup) (hp : l.Perm l') :
    canon le (.obj l) = canon le (.obj l') := by
  simp only [canon, Json.obj.injEq, canonMembers_eq]
  have hp' : ((l.map fun kv => (kv.1, canon le kv.2)).mergeSort (memLe le)).Perm
      ((l'.map fun kv => (kv.1, canon le kv.2)).mergeSort (memLe le)) :=
    (List.mergeSort_perm _ _).trans ((hp.map _).trans (List.mergeSort_perm _ _).symm)
  have srt : ∀ m : List (Str × Json N), (m.mergeSort (memLe le)).Pairwise (fun a b => memLe le a b = true) := by
    intro m
    apply List.pairwise_mergeSort
    · intro a b c; exact tr _ _ _
    · intro a b; simpa [memLe] using tot a.1 b.1
  refine hp'.eq_of_pairwise ?_ (srt _) (srt _)
  intro a b ha hb hab hba
  have hk : a.1 = b.1 := as _ _ hab hba
  have ha' := (List.mergeSort_perm _ _).mem_iff.mp ha
  have hb' := (hp.map _).mem_iff.mpr ((List.mergeSort_perm _ _).mem_iff.mp hb)
  obtain ⟨p, hpm, rfl⟩ := List.mem_map.mp ha'
  obtain ⟨q, hqm, rfl⟩ := List.mem_map.mp hb'
  have : p = q := List.inj_on_of_nodup_map hn hpm hqm hk
  rw [this]

end Json
end Verif
