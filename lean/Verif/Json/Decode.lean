import Verif.Json.Value

/-
Typed reading of JSON token trees: `serde_json::Number`, `serde_json::Value`, `String`, `Vec<String>`,
and the visitor `#[derive(Deserialize)]` generates for a struct.

The first argument `d` of the readers is serde_json's `remaining_depth` (128 at the start, crate default):
entering an object or array needs `d - 1 ≠ 0`.
-/

namespace Verif

/-! ### Numbers -/

/-- Decimal text of a natural number (`itoa`). -/
def natDec (n : Nat) : Bytes := if n = 0 then [0x30] else (digitsBE 10 n).map fun d => byte (0x30 + d)

/-- Value of a string of digits. -/
def decVal (bs : Bytes) : Nat := valBE 10 (bs.map fun b => b.toNat - 0x30)

/-- Text of a number (`Serialize for Number`); `fp` prints a finite `f64` (crate `ryu`). -/
def printNum {F : Type} (fp : F → Bytes) : Num F → Bytes
  | .pos n => natDec n.1
  | .neg k => 0x2d :: natDec (k.1 + 1)
  | .float f => fp f

/-- The token has neither fraction nor exponent. -/
def isIntTok : Bytes → Bool
  | [] => false
  | b :: r => if b = 0x2d then r.all isDigit else (b :: r).all isDigit

/-- `Deserializer::parse_any_number` for a number token: integers that fit `u64`/`i64` stay integers,
`-0` and everything else goes to the `f64` parser `fr` (which may overflow: `none`). -/
def decNum {F : Type} (fr : Bytes → Option F) (t : Bytes) : Option (Num F) :=
  if isIntTok t then
    if t.head? = some 0x2d then
      if h : 1 ≤ decVal t.tail ∧ decVal t.tail ≤ 2 ^ 63 then some (.neg ⟨decVal t.tail - 1, by omega⟩)
      else (fr t).map .float
    else
      if h : decVal t < 2 ^ 64 then some (.pos ⟨decVal t, h⟩)
      else (fr t).map .float
  else (fr t).map .float

/-- What is assumed of the `f64` printer: the printed text is a JSON number token with a fraction or an exponent.
That it parses back to the same value is not assumed: it is a hypothesis on the numbers of a document where it
matters. -/
structure FloatLaws {F : Type} (fp : F → Bytes) : Prop where
  tok : ∀ f, IsNumTok (fp f)
  notInt : ∀ f, isIntTok (fp f) = false

theorem natDec_spec (n : Nat) : (natDec n).all isDigit = true ∧ decVal (natDec n) = n ∧
    IsNumTok (natDec n) ∧ (natDec n).head? ≠ some 0x2d ∧ natDec n ≠ [] := by
  by_cases h0 : n = 0
  · subst h0
    refine ⟨by decide, ?_, by decide, by decide, by decide⟩
    simp [natDec, decVal, valBE]
  have hne : digitsBE 10 n ≠ [] := by
    simp [digitsBE, Nat.digits_ne_nil_iff_ne_zero, h0]
  have hlt := digitsBE_lt (b := 10) (by omega) n
  have hd : ∀ d, d < 10 → isDigit (byte (0x30 + d)) = true ∧ (byte (0x30 + d)).toNat - 0x30 = d := by
    intro d hd
    have h : (byte (0x30 + d)).toNat = 0x30 + d := byte_toNat_of_lt (by omega)
    simp only [isDigit, h]
    simp
    omega
  have hall : (natDec n).all isDigit = true := by
    simp only [natDec, if_neg h0, List.all_map, List.all_eq_true]
    intro d hm
    exact (hd d (hlt d hm)).1
  have hspan : ∀ l : Bytes, l.all isDigit = true → spanDigits l = (l, []) := by
    intro l hl
    induction l with
    | nil => rfl
    | cons b l ih =>
      simp only [List.all_cons, Bool.and_eq_true] at hl
      simp [spanDigits, hl.1, ih hl.2]
  have hhead := digitsBE_head 10 n hne
  obtain ⟨d0, ds, hds⟩ := List.exists_cons_of_ne_nil hne
  have hform : natDec n = byte (0x30 + d0) :: ds.map fun d => byte (0x30 + d) := by
    simp [natDec, h0, hds]
  have hd0 : d0 < 10 := hlt d0 (by simp [hds])
  have hd0' : d0 ≠ 0 := by simpa [hds] using hhead
  have hb : (byte (0x30 + d0)).toNat = 0x30 + d0 := byte_toNat_of_lt (by omega)
  have hb1 : byte (0x30 + d0) ≠ 0x30 := by
    intro h; rw [h] at hb; simp at hb; omega
  have hb2 : byte (0x30 + d0) ≠ 0x2d := by
    intro h; rw [h] at hb; simp at hb; omega
  have hall' := hall
  rw [hform, List.all_cons, Bool.and_eq_true] at hall'
  refine ⟨hall, ?_, ?_, ?_, ?_⟩
  · simp only [natDec, if_neg h0, decVal, List.map_map]
    have : ((fun b : UInt8 => b.toNat - 0x30) ∘ fun d => byte (0x30 + d)) = fun d => (byte (0x30 + d)).toNat - 0x30 := rfl
    rw [this, List.map_congr_left (g := id) (fun d hm => (hd d (hlt d hm)).2), List.map_id, valBE_digitsBE]
  · rw [hform, IsNumTok]
    simp only [scanNum, if_neg hb2, scanUNum, scanInt, if_neg hb1, hall'.1, if_true, hspan _ hall'.2, scanFrac,
      scanExp, List.append_nil]
  · rw [hform]; simpa using hb2
  · rw [hform]; simp

theorem isNumTok_neg {t : Bytes} (h : IsNumTok t) (hd : t.head? ≠ some 0x2d) : IsNumTok (0x2d :: t) := by
  cases t with
  | nil => cases h
  | cons b r =>
    have hb : b ≠ 0x2d := by simpa using hd
    unfold IsNumTok at *
    simp only [scanNum, if_neg hb] at h
    simp only [scanNum, if_true, h]
    rfl

theorem printNum_tok {F : Type} {fp : F → Bytes} (h : ∀ f, IsNumTok (fp f)) (n : Num F) :
    IsNumTok (printNum fp n) := by
  cases n with
  | pos n => exact (natDec_spec n.1).2.2.1
  | neg k => exact isNumTok_neg (natDec_spec _).2.2.1 (natDec_spec _).2.2.2.1
  | float f => exact h f

theorem decNum_printNum {F : Type} {fp : F → Bytes} {fr : Bytes → Option F} (L : FloatLaws fp) (n : Num F) :
    decNum fr (printNum fp n) =
      match n with
      | .float f => (fr (fp f)).map .float
      | n => some n := by
  cases n with
  | pos n =>
    obtain ⟨h1, h2, _, h4, h5⟩ := natDec_spec n.1
    have hi : isIntTok (natDec n.1) = true := by
      cases h : natDec n.1 with
      | nil => exact absurd h h5
      | cons b r =>
        have hb : b ≠ 0x2d := by simpa [h] using h4
        rw [h] at h1
        simp only [isIntTok, if_neg hb, h1]
    simp only [printNum, decNum, hi, if_true, if_neg h4, h2, n.2, dite_true]
  | neg k =>
    obtain ⟨h1, h2, _, _, _⟩ := natDec_spec (k.1 + 1)
    have hk := k.2
    have hi : isIntTok (0x2d :: natDec (k.1 + 1)) = true := by simp [isIntTok, h1]
    have hc : 1 ≤ k.1 + 1 ∧ k.1 + 1 ≤ 2 ^ 63 := by omega
    simp only [printNum, decNum, hi, if_true, List.head?_cons, List.tail_cons, h2, dif_pos hc]
    simp
  | float f => simp [printNum, decNum, L.notInt]

/-! ### Values -/

/-- Read every element of a list. -/
def optAll {α β : Type} (f : α → Option β) : List α → Option (List β)
  | [] => some []
  | x :: xs =>
    match f x with
    | none => none
    | some y =>
      match optAll f xs with
      | none => none
      | some ys => some (y :: ys)

theorem optAll_map {α β : Type} {f : α → Option β} {g : β → α} (l : List β) (h : ∀ x ∈ l, f (g x) = some x) :
    optAll f (l.map g) = some l := by
  induction l with
  | nil => rfl
  | cons x xs ih =>
    simp only [List.map_cons, optAll, h x (by simp)]
    rw [ih (fun y hy => h y (by simp [hy]))]

theorem optAll_mem {α β : Type} {f : α → Option β} {l : List α} {r : List β} (h : optAll f l = some r) :
    ∀ y ∈ r, ∃ x ∈ l, f x = some y := by
  induction l generalizing r with
  | nil => cases h; simp
  | cons x xs ih =>
    simp only [optAll] at h
    split at h
    · cases h
    · rename_i y hy
      split at h
      · cases h
      · rename_i ys hys
        cases h
        intro z hz
        rcases List.mem_cons.mp hz with rfl | hz
        · exact ⟨x, by simp, hy⟩
        · obtain ⟨x', hx', e⟩ := ih hys z hz
          exact ⟨x', by simp [hx'], e⟩

theorem optAll_mem' {α β : Type} {f : α → Option β} {l : List α} {r : List β} (h : optAll f l = some r) :
    ∀ x ∈ l, ∃ y ∈ r, f x = some y := by
  induction l generalizing r with
  | nil => simp
  | cons x xs ih =>
    simp only [optAll] at h
    split at h
    · cases h
    · rename_i y hy
      split at h
      · cases h
      · rename_i ys hys
        cases h
        intro z hz
        rcases List.mem_cons.mp hz with rfl | hz
        · exact ⟨y, by simp, hy⟩
        · obtain ⟨x', hx', e⟩ := ih hys z hz
          exact ⟨x', by simp [hx'], e⟩

mutual
/-- `Deserialize for serde_json::Value`: objects become `BTreeMap`s (sorted, last duplicate wins). -/
def decValue {F : Type} (fr : Bytes → Option F) (d : Nat) : Raw → Option (Json (Num F))
  | .null => some .null
  | .bool b => some (.bool b)
  | .num t => (decNum fr t).map .num
  | .str s => (decStr s).map .str
  | .arr xs => if d ≤ 1 then none else (decValues fr (d - 1) xs).map .arr
  | .obj kvs => if d ≤ 1 then none else (decMembers fr (d - 1) kvs).map fun l => .obj (btOfList l)
def decValues {F : Type} (fr : Bytes → Option F) (d : Nat) : List Raw → Option (List (Json (Num F)))
  | [] => some []
  | x :: xs =>
    match decValue fr d x with
    | none => none
    | some y =>
      match decValues fr d xs with
      | none => none
      | some ys => some (y :: ys)
def decMembers {F : Type} (fr : Bytes → Option F) (d : Nat) :
    List (Bytes × Raw) → Option (List (Str × Json (Num F)))
  | [] => some []
  | (k, x) :: xs =>
    match decStr k with
    | none => none
    | some k' =>
      match decValue fr d x with
      | none => none
      | some y =>
        match decMembers fr d xs with
        | none => none
        | some ys => some ((k', y) :: ys)
end

section
variable {F : Type} {fp : F → Bytes} {fr : Bytes → Option F}

mutual
/-- A value of depth below the recursion limit whose numbers are printed by `p` reads back as the value with its
numbers reread. -/
theorem decValue_toRaw {N : Type} {p : N → Bytes} {ρ : N → Num F} (j : Json N)
    (hn : ∀ n ∈ j.nums, decNum fr (p n) = some (ρ n)) (hs : j.Sorted) (d : Nat) (hd : j.depth < d) :
    decValue fr d (j.toRaw p) = some (j.mapNum ρ) := by
  match j, hn, hs, hd with
  | .null, _, _, _ => simp [Json.toRaw, decValue, Json.mapNum]
  | .bool b, _, _, _ => simp [Json.toRaw, decValue, Json.mapNum]
  | .num n, hn, _, _ => simp [Json.toRaw, decValue, Json.mapNum, hn n (by simp [Json.nums])]
  | .str s, _, _, _ => simp [Json.toRaw, decValue, decStr_encStr, Json.mapNum]
  | .arr xs, hn, hs, hd =>
    simp only [Json.depth] at hd
    simp only [Json.Sorted] at hs
    simp only [Json.nums] at hn
    simp only [Json.toRaw, decValue, if_neg (show ¬ d ≤ 1 by omega), Json.mapNum]
    rw [decValues_toRaw xs hn hs (d - 1) (by omega)]
    rfl
  | .obj kvs, hn, hs, hd =>
    simp only [Json.depth] at hd
    simp only [Json.Sorted] at hs
    simp only [Json.nums] at hn
    simp only [Json.toRaw, decValue, if_neg (show ¬ d ≤ 1 by omega), Json.mapNum]
    rw [decMembers_toRaw kvs hn hs.2 (d - 1) (by omega)]
    simp only [Option.map_some]
    rw [btOfList_of_sorted (by rw [Json.mapNumMembers_eq]; exact (Json.keysSorted_map _).mpr hs.1)]
theorem decValues_toRaw {N : Type} {p : N → Bytes} {ρ : N → Num F} (xs : List (Json N))
    (hn : ∀ n ∈ Json.numsList xs, decNum fr (p n) = some (ρ n)) (hs : Json.SortedList xs) (d : Nat)
    (hd : Json.depthList xs < d) : decValues fr d (Json.toRawList p xs) = some (Json.mapNumList ρ xs) := by
  match xs, hn, hs, hd with
  | [], _, _, _ => simp [Json.toRawList, decValues, Json.mapNumList]
  | x :: xs, hn, hs, hd =>
    simp only [Json.depthList] at hd
    simp only [Json.SortedList] at hs
    simp only [Json.numsList, List.mem_append, or_imp, forall_and] at hn
    simp only [Json.toRawList, decValues, Json.mapNumList]
    rw [decValue_toRaw x hn.1 hs.1 d (by omega), decValues_toRaw xs hn.2 hs.2 d (by omega)]
theorem decMembers_toRaw {N : Type} {p : N → Bytes} {ρ : N → Num F} (xs : List (Str × Json N))
    (hn : ∀ n ∈ Json.numsMembers xs, decNum fr (p n) = some (ρ n)) (hs : Json.SortedMembers xs)
    (d : Nat) (hd : Json.depthMembers xs < d) :
    decMembers fr d (Json.toRawMembers p xs) = some (Json.mapNumMembers ρ xs) := by
  match xs, hn, hs, hd with
  | [], _, _, _ => simp [Json.toRawMembers, decMembers, Json.mapNumMembers]
  | (k, x) :: xs, hn, hs, hd =>
    simp only [Json.depthMembers] at hd
    simp only [Json.SortedMembers] at hs
    simp only [Json.numsMembers, List.mem_append, or_imp, forall_and] at hn
    simp only [Json.toRawMembers, decMembers, decStr_encStr, Json.mapNumMembers]
    rw [decValue_toRaw x hn.1 hs.1 d (by omega), decMembers_toRaw xs hn.2 hs.2 d (by omega)]
end

mutual
/-- A value is read only if each of its numbers is. -/
theorem decValue_nums {N : Type} {p : N → Bytes} (j : Json N) (d : Nat) {j' : Json (Num F)}
    (h : decValue fr d (j.toRaw p) = some j') : ∀ n ∈ j.nums, (decNum fr (p n)).isSome := by
  match j, h with
  | .null, _ => simp [Json.nums]
  | .bool b, _ => simp [Json.nums]
  | .num n, h =>
    simp only [Json.toRaw, decValue, Option.map_eq_some_iff] at h
    obtain ⟨_, h, _⟩ := h
    simp [Json.nums, h]
  | .str s, _ => simp [Json.nums]
  | .arr xs, h =>
    simp only [Json.toRaw, decValue] at h
    split at h
    · cases h
    · obtain ⟨l, hl, _⟩ := Option.map_eq_some_iff.mp h
      simpa only [Json.nums] using decValues_nums xs _ hl
  | .obj kvs, h =>
    simp only [Json.toRaw, decValue] at h
    split at h
    · cases h
    · obtain ⟨l, hl, _⟩ := Option.map_eq_some_iff.mp h
      simpa only [Json.nums] using decMembers_nums kvs _ hl
theorem decValues_nums {N : Type} {p : N → Bytes} (xs : List (Json N)) (d : Nat) {l : List (Json (Num F))}
    (h : decValues fr d (Json.toRawList p xs) = some l) : ∀ n ∈ Json.numsList xs, (decNum fr (p n)).isSome := by
  match xs, h with
  | [], _ => simp [Json.numsList]
  | x :: xs, h =>
    simp only [Json.toRawList, decValues] at h
    split at h
    · cases h
    · rename_i y hy
      split at h
      · cases h
      · rename_i ys hys
        simp only [Json.numsList, List.mem_append, or_imp, forall_and]
        exact ⟨decValue_nums x d hy, decValues_nums xs d hys⟩
theorem decMembers_nums {N : Type} {p : N → Bytes} (xs : List (Str × Json N)) (d : Nat) {l : List (Str × Json (Num F))}
    (h : decMembers fr d (Json.toRawMembers p xs) = some l) : ∀ n ∈ Json.numsMembers xs, (decNum fr (p n)).isSome := by
  match xs, h with
  | [], _ => simp [Json.numsMembers]
  | (k, x) :: xs, h =>
    simp only [Json.toRawMembers, decMembers, decStr_encStr] at h
    split at h
    · cases h
    · rename_i y hy
      split at h
      · cases h
      · rename_i ys hys
        simp only [Json.numsMembers, List.mem_append, or_imp, forall_and]
        exact ⟨decValue_nums x d hy, decMembers_nums xs d hys⟩
end

theorem btOfList_mem {α : Type} {l : List (Str × α)} {p : Str × α} (h : p ∈ btOfList l) : p ∈ l := by
  have : ∀ (l m : List (Str × α)), p ∈ l.foldl (fun m kv => btInsert kv.1 kv.2 m) m → p ∈ m ∨ p ∈ l := by
    intro l
    induction l with
    | nil => intro m h; exact Or.inl h
    | cons q l ih =>
      intro m h
      rcases ih _ h with h | h
      · rcases btInsert_mem h with h | h
        · exact Or.inr (by simp [h])
        · exact Or.inl h
      · exact Or.inr (by simp [h])
  rcases this l [] h with h | h
  · simp at h
  · exact h

mutual
/-- Whatever is read as a `Value` is a `Value`. -/
theorem decValue_sorted (r : Raw) (d : Nat) (j : Json (Num F)) (h : decValue fr d r = some j) : j.Sorted := by
  match r, h with
  | .null, h => simp only [decValue, Option.some.injEq] at h; subst h; simp [Json.Sorted]
  | .bool b, h => simp only [decValue, Option.some.injEq] at h; subst h; simp [Json.Sorted]
  | .num n, h =>
    simp only [decValue, Option.map_eq_some_iff] at h
    obtain ⟨_, _, rfl⟩ := h; simp [Json.Sorted]
  | .str s, h =>
    simp only [decValue, Option.map_eq_some_iff] at h
    obtain ⟨_, _, rfl⟩ := h; simp [Json.Sorted]
  | .arr xs, h =>
    simp only [decValue] at h
    split at h
    · cases h
    · obtain ⟨l, hl, rfl⟩ := Option.map_eq_some_iff.mp h
      simp only [Json.Sorted]
      exact decValues_sorted xs _ l hl
  | .obj kvs, h =>
    simp only [decValue] at h
    split at h
    · cases h
    · obtain ⟨l, hl, rfl⟩ := Option.map_eq_some_iff.mp h
      simp only [Json.Sorted]
      refine ⟨btOfList_sorted l, ?_⟩
      have := (Json.sortedMembers_iff _).mp (decMembers_sorted kvs _ l hl)
      exact (Json.sortedMembers_iff _).mpr fun x hx => this x (btOfList_mem hx)
theorem decValues_sorted (xs : List Raw) (d : Nat) (l : List (Json (Num F)))
    (h : decValues fr d xs = some l) : Json.SortedList l := by
  match xs, h with
  | [], h => simp only [decValues, Option.some.injEq] at h; subst h; simp [Json.SortedList]
  | x :: xs, h =>
    simp only [decValues] at h
    split at h
    · cases h
    · rename_i y hy
      split at h
      · cases h
      · rename_i ys hys
        cases h
        exact ⟨decValue_sorted x d y hy, decValues_sorted xs d ys hys⟩
theorem decMembers_sorted (xs : List (Bytes × Raw)) (d : Nat) (l : List (Str × Json (Num F)))
    (h : decMembers fr d xs = some l) : Json.SortedMembers l := by
  match xs, h with
  | [], h => simp only [decMembers, Option.some.injEq] at h; subst h; simp [Json.SortedMembers]
  | (k, x) :: xs, h =>
    simp only [decMembers] at h
    split at h
    · cases h
    · split at h
      · cases h
      · rename_i y hy
        split at h
        · cases h
        · rename_i ys hys
          cases h
          exact ⟨decValue_sorted x d y hy, decMembers_sorted xs d ys hys⟩
end

mutual
/-- A `Value` at or over the recursion limit does not read back. -/
theorem decValue_deep (j : Json (Num F)) (d : Nat) (hd : 1 ≤ d) (h : d ≤ j.depth) :
    decValue fr d (j.toRaw (printNum fp)) = none := by
  match j, h with
  | .null, h => simp [Json.depth] at h; omega
  | .bool b, h => simp [Json.depth] at h; omega
  | .num n, h => simp [Json.depth] at h; omega
  | .str s, h => simp [Json.depth] at h; omega
  | .arr xs, h =>
    simp only [Json.depth] at h
    simp only [Json.toRaw, decValue]
    split
    · rfl
    · rw [decValues_deep xs (d - 1) (by omega) (by omega)]; rfl
  | .obj kvs, h =>
    simp only [Json.depth] at h
    simp only [Json.toRaw, decValue]
    split
    · rfl
    · rw [decMembers_deep kvs (d - 1) (by omega) (by omega)]; rfl
theorem decValues_deep (xs : List (Json (Num F))) (d : Nat) (hd : 1 ≤ d) (h : d ≤ Json.depthList xs) :
    decValues fr d (Json.toRawList (printNum fp) xs) = none := by
  match xs, h with
  | [], h => simp [Json.depthList] at h; omega
  | x :: xs, h =>
    simp only [Json.depthList] at h
    simp only [Json.toRawList, decValues]
    by_cases hx : d ≤ x.depth
    · rw [decValue_deep x d hd hx]
    · rw [decValues_deep xs d hd (by omega)]
      split <;> rfl
theorem decMembers_deep (xs : List (Str × Json (Num F))) (d : Nat) (hd : 1 ≤ d) (h : d ≤ Json.depthMembers xs) :
    decMembers fr d (Json.toRawMembers (printNum fp) xs) = none := by
  match xs, h with
  | [], h => simp [Json.depthMembers] at h; omega
  | (k, x) :: xs, h =>
    simp only [Json.depthMembers] at h
    simp only [Json.toRawMembers, decMembers, decStr_encStr]
    by_cases hx : d ≤ x.depth
    · rw [decValue_deep x d hd hx]
    · rw [decMembers_deep xs d hd (by omega)]
      split <;> rfl
end
end

/-! ### Derived struct readers -/

/-- `String`. -/
def decString : Raw → Option Str
  | .str s => decStr s
  | _ => none

/-- `Vec<T>`. -/
def decVec {α : Type} (f : Nat → Raw → Option α) (d : Nat) : Raw → Option (List α)
  | .arr xs => if d ≤ 1 then none else optAll (f (d - 1)) xs
  | _ => none

/-- Collect the members of a map that name known fields; unknown members are skipped, a repeated known
member is an error (`duplicate_field`). -/
def collectFields (known : List Str) : List (Str × Raw) → List (Bytes × Raw) → Option (List (Str × Raw))
  | acc, [] => some acc
  | acc, (k, v) :: rest =>
    match decStr k with
    | none => none
    | some name =>
      if name ∈ known then
        if (acc.lookup name).isSome then none else collectFields known (acc ++ [(name, v)]) rest
      else collectFields known acc rest

/-- The visitor of `#[derive(Deserialize)]` on a struct with the given serialised field names: accepts an
object (`visit_map`) or an array with exactly the fields in order (`visit_seq`). Returns the raw value of
each field that is present. -/
def structFields (known : List Str) (d : Nat) : Raw → Option (List (Str × Raw))
  | .obj kvs => if d ≤ 1 then none else collectFields known [] kvs
  | .arr xs => if d ≤ 1 then none else if xs.length = known.length then some (known.zip xs) else none
  | _ => none

/-- A mandatory field: missing is an error. -/
def reqField {α : Type} (fs : List (Str × Raw)) (name : Str) (f : Raw → Option α) : Option α :=
  match fs.lookup name with
  | none => none
  | some r => f r

/-- An `Option<T>` field: missing or `null` is `None`. -/
def optField {α : Type} (fs : List (Str × Raw)) (name : Str) (f : Raw → Option α) : Option (Option α) :=
  match fs.lookup name with
  | none => some none
  | some .null => some none
  | some r => (f r).map some

theorem decString_toRaw {N : Type} (p : N → Bytes) (s : Str) : decString ((Json.str s : Json N).toRaw p) = some s := by
  simp [Json.toRaw, decString, decStr_encStr]

/-- Members whose names are distinct known fields are all collected, in order. -/
theorem collectFields_all {N : Type} (p : N → Bytes) (known : List Str) (l : List (Str × Json N)) (acc : List (Str × Raw))
    (hk : ∀ x ∈ l, x.1 ∈ known) (hn : (acc.map (·.1) ++ l.map (·.1)).Nodup) :
    collectFields known acc (Json.toRawMembers p l) = some (acc ++ l.map fun x => (x.1, x.2.toRaw p)) := by
  induction l generalizing acc with
  | nil => simp [Json.toRawMembers, collectFields]
  | cons x l ih =>
    obtain ⟨k, v⟩ := x
    have hnot : k ∉ acc.map (·.1) := by
      intro hm
      have := (List.nodup_append.mp hn).2.2 k hm k (by simp)
      exact this rfl
    have hl : acc.lookup k = none := by
      rw [List.lookup_eq_none_iff]
      intro q hq
      have : q.1 ≠ k := fun e => hnot (List.mem_map.mpr ⟨q, hq, e⟩)
      simpa using Ne.symm this
    simp only [Json.toRawMembers, collectFields, decStr_encStr, if_pos (hk (k, v) (by simp)), hl]
    simp only [Option.isSome_none, Bool.false_eq_true, if_false]
    rw [ih]
    · simp
    · intro x hx; exact hk x (by simp [hx])
    · simpa using hn

end Verif
