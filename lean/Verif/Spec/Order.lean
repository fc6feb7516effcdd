import Verif.Spec.Wire

/-
Orders of member names.
-/

namespace Verif.Spec
open Verif

/-- Lexicographic order of number lists. -/
def lexLe : List Nat → List Nat → Bool
  | [], _ => true
  | _ :: _, [] => false
  | a :: as, b :: bs => decide (a < b) || (decide (a = b) && lexLe as bs)

/-- UTF-16 code units of a character. -/
def utf16Units (c : Char) : List Nat :=
  if c.toNat < 0x10000 then [c.toNat]
  else [0xD800 + (c.toNat - 0x10000) / 0x400, 0xDC00 + (c.toNat - 0x10000) % 0x400]

/-- The order of RFC 8785 section 3.2.3: UTF-16 code units. -/
def unitLe (a b : Str) : Bool := lexLe (a.flatMap utf16Units) (b.flatMap utf16Units)

/-- The order of code points. -/
def pointLe (a b : Str) : Bool := lexLe (a.map Char.toNat) (b.map Char.toNat)

/-- The order of Rust's `String`: UTF-8 bytes. -/
def byteLe (a b : Str) : Bool := lexLe ((utf8 a).map UInt8.toNat) ((utf8 b).map UInt8.toNat)

/-- No supplementary characters. -/
def Basic (s : Str) : Prop := ∀ c ∈ s, c.toNat < 0x10000

/-- No characters between the surrogates and the supplementary characters. -/
def NoUpper (s : Str) : Prop := ∀ c ∈ s, ¬ (0xE000 ≤ c.toNat ∧ c.toNat < 0x10000)

mutual
/-- Every member name at every level satisfies `P`. -/
def AllNames {N : Type} (P : Str → Prop) : Json N → Prop
  | .arr xs => AllNamesElems P xs
  | .obj kvs => AllNamesMembers P kvs
  | _ => True
def AllNamesElems {N : Type} (P : Str → Prop) : List (Json N) → Prop
  | [] => True
  | x :: xs => AllNames P x ∧ AllNamesElems P xs
def AllNamesMembers {N : Type} (P : Str → Prop) : List (Str × Json N) → Prop
  | [] => True
  | (k, v) :: kvs => P k ∧ AllNames P v ∧ AllNamesMembers P kvs
end

end Verif.Spec

namespace Verif
open Spec

theorem lexLe_total (a b : List Nat) : lexLe a b = true ∨ lexLe b a = true := by
  induction a generalizing b with
  | nil => simp [lexLe]
  | cons x a ih =>
    cases b with
    | nil => simp [lexLe]
    | cons y b =>
      simp only [lexLe, Bool.or_eq_true, Bool.and_eq_true, decide_eq_true_eq]
      rcases Nat.lt_trichotomy x y with h | h | h
      · exact .inl (.inl h)
      · rcases ih b with h' | h'
        · exact .inl (.inr ⟨h, h'⟩)
        · exact .inr (.inr ⟨h.symm, h'⟩)
      · exact .inr (.inl h)

theorem lexLe_trans (a b c : List Nat) (h : lexLe a b = true) (h' : lexLe b c = true) : lexLe a c = true := by
  induction a generalizing b c with
  | nil => simp [lexLe]
  | cons x a ih =>
    cases b with
    | nil => simp [lexLe] at h
    | cons y b =>
      cases c with
      | nil => simp [lexLe] at h'
      | cons z c =>
        simp only [lexLe, Bool.or_eq_true, Bool.and_eq_true, decide_eq_true_eq] at *
        rcases h with h | ⟨h, g⟩
        · rcases h' with h' | ⟨h', g'⟩
          · exact .inl (by omega)
          · exact .inl (by omega)
        · rcases h' with h' | ⟨h', g'⟩
          · exact .inl (by omega)
          · exact .inr ⟨by omega, ih b c g g'⟩

theorem lexLe_antisymm (a b : List Nat) (h : lexLe a b = true) (h' : lexLe b a = true) : a = b := by
  induction a generalizing b with
  | nil =>
    cases b with
    | nil => rfl
    | cons y b => simp [lexLe] at h'
  | cons x a ih =>
    cases b with
    | nil => simp [lexLe] at h
    | cons y b =>
      simp only [lexLe, Bool.or_eq_true, Bool.and_eq_true, decide_eq_true_eq] at *
      rcases h with h | ⟨h, g⟩
      · rcases h' with h' | ⟨h', g'⟩ <;> omega
      · rcases h' with h' | ⟨h', g'⟩
        · omega
        · rw [h, ih b g g']

theorem toNat_inj {c d : Char} (h : c.toNat = d.toNat) : c = d := Char.ext (UInt32.toNat_inj.mp h)

theorem char_bounds (c : Char) : c.toNat < 0xD800 ∨ (0xE000 ≤ c.toNat ∧ c.toNat < 0x110000) := by
  have := c.valid
  simp only [UInt32.isValidChar, Nat.isValidChar] at this
  show c.val.toNat < _ ∨ _
  rcases this with h | h
  · exact .inl h
  · exact .inr ⟨by have := h.1; show _ ≤ c.val.toNat; omega, h.2⟩

theorem lexLe_append_left (a x y : List Nat) : lexLe (a ++ x) (a ++ y) = lexLe x y := by
  induction a with
  | nil => rfl
  | cons _ a ih => simp [lexLe, ih]

/-- Encodings that are ordered like the code points, character by character. -/
theorem lexLe_points {f : Char → List Nat} {s t : Str} (hf : ∀ c, f c ≠ [])
    (h : ∀ c ∈ s, ∀ d ∈ t, c ≠ d → ∀ x y, lexLe (f c ++ x) (f d ++ y) = decide (c.toNat < d.toNat)) :
    lexLe (s.flatMap f) (t.flatMap f) = pointLe s t := by
  induction s generalizing t with
  | nil => simp [lexLe, pointLe]
  | cons c s ih =>
    cases t with
    | nil =>
      simp only [List.flatMap_cons, List.flatMap_nil]
      cases hc : f c with
      | nil => exact absurd hc (hf c)
      | cons a l => rfl
    | cons d t =>
      simp only [List.flatMap_cons]
      by_cases e : c = d
      · subst e
        rw [lexLe_append_left, ih fun a ha b hb => h a (by simp [ha]) b (by simp [hb])]
        simp [pointLe, lexLe]
      · rw [h c (by simp) d (by simp) e]
        have : c.toNat ≠ d.toNat := fun h => e (toNat_inj h)
        simp [pointLe, lexLe, this]

theorem units_lt {c d : Char} (h : (c.toNat < 0x10000 ∧ d.toNat < 0x10000) ∨
      (¬ (0xE000 ≤ c.toNat ∧ c.toNat < 0x10000) ∧ ¬ (0xE000 ≤ d.toNat ∧ d.toNat < 0x10000))) (hn : c ≠ d)
    (x y : List Nat) : lexLe (utf16Units c ++ x) (utf16Units d ++ y) = decide (c.toNat < d.toNat) := by
  have hc := char_bounds c
  have hd := char_bounds d
  have hn' : c.toNat ≠ d.toNat := fun h => hn (toNat_inj h)
  rw [Bool.eq_iff_iff]
  unfold utf16Units
  generalize c.toNat = m at *
  generalize d.toNat = n at *
  split <;> split <;> simp only [List.cons_append, List.nil_append, lexLe, Bool.or_eq_true, Bool.and_eq_true,
    decide_eq_true_eq] <;> omega

theorem units_order {s t : Str} (h : (Basic s ∧ Basic t) ∨ (NoUpper s ∧ NoUpper t)) : unitLe s t = pointLe s t := by
  refine lexLe_points (fun c => ?_) fun c hc d hd hn x y => units_lt ?_ hn x y
  · unfold utf16Units; split <;> simp
  · rcases h with h | h
    · exact .inl ⟨h.1 c hc, h.2 d hd⟩
    · exact .inr ⟨h.1 c hc, h.2 d hd⟩

/-- Bytes of the encoding as numbers. -/
def utf8Nats (n : Nat) : List Nat :=
  if n < 0x80 then [n]
  else if n < 0x800 then [0xC0 + n / 64, 0x80 + n % 64]
  else if n < 0x10000 then [0xE0 + n / 4096, 0x80 + n / 64 % 64, 0x80 + n % 64]
  else [0xF0 + n / 262144, 0x80 + n / 4096 % 64, 0x80 + n / 64 % 64, 0x80 + n % 64]

theorem utf8Nats_eq (c : Char) : (utf8EncodeChar c).map UInt8.toNat = utf8Nats c.toNat := by
  have hc := char_bounds c
  unfold utf8EncodeChar utf8Nats
  generalize c.toNat = n at *
  simp only
  split
  · simp only [List.map_cons, List.map_nil]; rw [byte_toNat_of_lt (by omega)]
  split
  · simp only [List.map_cons, List.map_nil]; rw [byte_toNat_of_lt (by omega), byte_toNat_of_lt (by omega)]
  split
  · simp only [List.map_cons, List.map_nil]; rw [byte_toNat_of_lt (by omega), byte_toNat_of_lt (by omega), byte_toNat_of_lt (by omega)]
  · simp only [List.map_cons, List.map_nil]
    rw [byte_toNat_of_lt (by omega), byte_toNat_of_lt (by omega), byte_toNat_of_lt (by omega), byte_toNat_of_lt (by omega)]

theorem bytes_lt {c d : Char} (hn : c ≠ d) (x y : List Nat) :
    lexLe (utf8Nats c.toNat ++ x) (utf8Nats d.toNat ++ y) = decide (c.toNat < d.toNat) := by
  have hc := char_bounds c
  have hd := char_bounds d
  have hn' : c.toNat ≠ d.toNat := fun h => hn (toNat_inj h)
  rw [Bool.eq_iff_iff]
  generalize c.toNat = m at *
  generalize d.toNat = n at *
  unfold utf8Nats
  have e : ∀ k, k / 4096 = k / 64 / 64 := fun k => by omega
  have e' : ∀ k, k / 262144 = k / 64 / 64 / 64 := fun k => by omega
  split <;> [skip; split <;> [skip; split]] <;> (split <;> [skip; split <;> [skip; split]]) <;>
    simp only [List.cons_append, List.nil_append, lexLe, Bool.or_eq_true, Bool.and_eq_true,
      decide_eq_true_eq] <;> omega

theorem bytes_order (s t : Str) : byteLe s t = pointLe s t := by
  have e : ∀ s : Str, (utf8 s).map UInt8.toNat = s.flatMap fun c => utf8Nats c.toNat := by
    intro s
    rw [utf8_eq]
    induction s with
    | nil => rfl
    | cons c s ih => rw [utf8Encode_cons, List.map_append, ih, utf8Nats_eq, List.flatMap_cons]
  unfold byteLe
  rw [e, e]
  refine lexLe_points (fun c => ?_) fun c _ d _ hn x y => bytes_lt hn x y
  unfold utf8Nats
  split <;> [skip; split <;> [skip; split]] <;> simp

theorem units_inj {s t : Str} (h : s.flatMap utf16Units = t.flatMap utf16Units) : s = t := by
  induction s generalizing t with
  | nil =>
    cases t with
    | nil => rfl
    | cons d t =>
      rw [List.flatMap_nil, List.flatMap_cons] at h
      unfold utf16Units at h
      split at h <;> simp at h
  | cons c s ih =>
    cases t with
    | nil =>
      rw [List.flatMap_nil, List.flatMap_cons] at h
      unfold utf16Units at h
      split at h <;> simp at h
    | cons d t =>
      rw [List.flatMap_cons, List.flatMap_cons] at h
      have hc := char_bounds c
      have hd := char_bounds d
      have e : c.toNat = d.toNat ∧ s.flatMap utf16Units = t.flatMap utf16Units := by
        unfold utf16Units at h
        split at h <;> split at h <;> simp only [List.cons_append, List.nil_append, List.cons.injEq] at h
        · exact h
        · omega
        · omega
        · exact ⟨by omega, h.2.2⟩
      rw [toNat_inj e.1, ih e.2]

theorem points_inj {s t : Str} (h : s.map Char.toNat = t.map Char.toNat) : s = t :=
  List.map_injective_iff.mpr (fun _ _ => toNat_inj) h

/-- The same third party functions with another member order. -/
@[reducible] def Env.withOrder (E : Env) (le : Str → Str → Bool) : Env := { E with keyLe := le }

theorem allNamesMembers_iff {N : Type} (P : Str → Prop) (l : List (Str × Json N)) :
    AllNamesMembers P l ↔ ∀ m ∈ l, P m.1 ∧ AllNames P m.2 := by
  induction l with
  | nil => simp [AllNamesMembers]
  | cons m l ih => obtain ⟨k, v⟩ := m; simp [AllNamesMembers, ih, and_assoc]

theorem insertMember_congr {N : Type} {le le' : Str → Str → Bool} {P : Str → Prop}
    (h : ∀ a b, P a → P b → le a b = le' a b) (m : Str × Json N) (l : List (Str × Json N)) (hm : P m.1)
    (hl : ∀ x ∈ l, P x.1) : insertMember le m l = insertMember le' m l := by
  induction l with
  | nil => rfl
  | cons x l ih =>
    simp only [insertMember, h _ _ hm (hl x (by simp)), ih fun y hy => hl y (by simp [hy])]

mutual
theorem sortKeys_congr {N : Type} {le le' : Str → Str → Bool} {P : Str → Prop}
    (h : ∀ a b, P a → P b → le a b = le' a b) (j : Json N) (hj : AllNames P j) : sortKeys le j = sortKeys le' j := by
  match j, hj with
  | .null, _ => simp [sortKeys]
  | .bool _, _ => simp [sortKeys]
  | .num _, _ => simp [sortKeys]
  | .str _, _ => simp [sortKeys]
  | .arr xs, hj => simp only [sortKeys, AllNames] at *; rw [sortKeysElems_congr h xs hj]
  | .obj kvs, hj => simp only [sortKeys, AllNames] at *; rw [sortKeysMembers_congr h kvs hj]
theorem sortKeysElems_congr {N : Type} {le le' : Str → Str → Bool} {P : Str → Prop}
    (h : ∀ a b, P a → P b → le a b = le' a b) (xs : List (Json N)) (hj : AllNamesElems P xs) :
    sortKeysElems le xs = sortKeysElems le' xs := by
  match xs, hj with
  | [], _ => simp [sortKeysElems]
  | x :: xs, hj =>
    simp only [sortKeysElems, AllNamesElems] at *
    rw [sortKeys_congr h x hj.1, sortKeysElems_congr h xs hj.2]
theorem sortKeysMembers_congr {N : Type} {le le' : Str → Str → Bool} {P : Str → Prop}
    (h : ∀ a b, P a → P b → le a b = le' a b) (kvs : List (Str × Json N)) (hj : AllNamesMembers P kvs) :
    sortKeysMembers le kvs = sortKeysMembers le' kvs := by
  match kvs, hj with
  | [], _ => simp [sortKeysMembers]
  | (k, v) :: kvs, hj =>
    simp only [sortKeysMembers, AllNamesMembers] at *
    rw [sortKeys_congr h v hj.2.1, sortKeysMembers_congr h kvs hj.2.2]
    refine insertMember_congr h _ _ hj.1 fun x hx => ?_
    obtain ⟨y, hy, e⟩ := List.mem_map.mp ((sortKeysMembers_perm kvs).mem_iff.mp hx)
    rw [← e]
    exact ((allNamesMembers_iff P kvs).mp hj.2.2 y hy).1
end

end Verif
