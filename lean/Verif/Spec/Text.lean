import Verif.Codec.Hex
import Verif.Codec.Multibase

/-
Independent descriptions of the text encodings, used in theorem statements instead of the model's codecs, and
the proofs that the codecs meet them.
-/

namespace Verif.Spec
open Verif

/-- UTF-8 bytes of a text, by Lean's own encoder. -/
def utf8 (s : Str) : Bytes := s.flatMap String.utf8EncodeChar

/-- The sixteen lower-case hex digits. -/
def hexDigits : Str := "0123456789abcdef".toList

/-- `t` is the lower-case hex text of `b`: two characters per byte, high digit first. -/
structure IsHex (b : Bytes) (t : Str) : Prop where
  len : t.length = 2 * b.length
  hi : ∀ i x, b[i]? = some x → t[2 * i]? = hexDigits[x.toNat / 16]?
  lo : ∀ i x, b[i]? = some x → t[2 * i + 1]? = hexDigits[x.toNat % 16]?

/-- The base58btc alphabet. -/
def base58Digits : Str := "123456789ABCDEFGHJKLMNPQRSTUVWXYZabcdefghijkmnopqrstuvwxyz".toList

/-- Big-endian value of digits in a base. -/
def valueOf (base : Nat) (ds : List Nat) : Nat := ds.foldl (fun a d => a * base + d) 0

/-- Number of leading zero digits. -/
def zerosOf (ds : List Nat) : Nat := (ds.takeWhile (· == 0)).length

/-- `t` is the base58btc text of `b`: digits of the same big-endian number, with as many leading zero digits
(`1`) as `b` has leading zero bytes. -/
def IsBase58 (b : Bytes) (t : Str) : Prop :=
  ∃ ds : List Nat, (∀ d ∈ ds, d < 58) ∧ t.map some = ds.map (base58Digits[·]?) ∧
    valueOf 58 ds = valueOf 256 (b.map UInt8.toNat) ∧ zerosOf ds = zerosOf (b.map UInt8.toNat)

/-- `t` is the multibase base58btc text of `b`. -/
def IsMultibase58 (b : Bytes) (t : Str) : Prop := ∃ r, t = 'z' :: r ∧ IsBase58 b r

end Verif.Spec

namespace Verif
open Spec

theorem hexDigits_get : ∀ n < 16, hexDigits[n]? = some (hexDigit n) := by decide +kernel

theorem hexEncode_spec (b : Bytes) : IsHex b (hexEncode b) := by
  induction b with
  | nil => exact ⟨rfl, by simp, by simp⟩
  | cons a b ih =>
    have e : hexEncode (a :: b) = hexDigit (a.toNat / 16) :: hexDigit (a.toNat % 16) :: hexEncode b := rfl
    have ha := UInt8.lt256 a
    refine ⟨by rw [hexEncode_length], ?_, ?_⟩
    · intro i x h
      cases i with
      | zero =>
        simp only [List.getElem?_cons_zero, Option.some.injEq] at h
        subst h
        rw [hexDigits_get _ (by omega), e]; rfl
      | succ i =>
        have := ih.hi i x (by simpa using h)
        rw [← this, e, show 2 * (i + 1) = 2 * i + 1 + 1 by omega]
        rfl
    · intro i x h
      cases i with
      | zero =>
        simp only [List.getElem?_cons_zero, Option.some.injEq] at h
        subst h
        rw [hexDigits_get _ (by omega), e]; rfl
      | succ i =>
        have := ih.lo i x (by simpa using h)
        rw [← this, e, show 2 * (i + 1) + 1 = 2 * i + 1 + 1 + 1 by omega]
        rfl

/-- The description determines the text. -/
theorem Spec.IsHex.unique {b : Bytes} {t : Str} (h : IsHex b t) : t = hexEncode b := by
  have g := hexEncode_spec b
  apply List.ext_getElem?
  intro j
  by_cases hj : j < 2 * b.length
  · have hb : b[j / 2]? = some b[j / 2] := List.getElem?_eq_getElem (by omega)
    rcases Nat.mod_two_eq_zero_or_one j with e | e
    · have e' : j = 2 * (j / 2) := by omega
      rw [e', h.hi _ _ hb, g.hi _ _ hb]
    · have e' : j = 2 * (j / 2) + 1 := by omega
      rw [e', h.lo _ _ hb, g.lo _ _ hb]
  · rw [List.getElem?_eq_none (by rw [h.len]; omega), List.getElem?_eq_none (by rw [g.len]; omega)]

theorem valueOf_acc (b : Nat) (ds : List Nat) (a : Nat) :
    ds.foldl (fun a d => a * b + d) a = a * b ^ ds.length + Nat.ofDigits b ds.reverse := by
  induction ds generalizing a with
  | nil => simp
  | cons d ds ih =>
    simp only [List.foldl_cons, List.reverse_cons, List.length_cons]
    rw [ih, Nat.ofDigits_append]
    simp only [List.length_reverse, Nat.ofDigits_singleton]
    ring

theorem valueOf_eq (b : Nat) (ds : List Nat) : valueOf b ds = valBE b ds := by
  unfold valueOf valBE
  rw [valueOf_acc]; simp

theorem zerosOf_eq (ds : List Nat) : zerosOf ds = leadingZeros ds := by
  induction ds with
  | nil => rfl
  | cons d ds ih =>
    unfold zerosOf at ih ⊢
    cases d with
    | zero => simp [leadingZeros, ih]
    | succ n => simp [leadingZeros]

theorem valBE_rebase (b₁ b₂ : Nat) (l : List Nat) : valBE b₂ (rebase b₁ b₂ l) = valBE b₁ l := by
  unfold rebase
  rw [valBE_replicate, valBE_digitsBE]

theorem base58Digits_get : ∀ n < 58, base58Digits[n]? = some (b58Char n) := by decide +kernel

theorem base58Encode_spec (b : Bytes) : IsBase58 b (base58Encode b) := by
  refine ⟨rebase 256 58 (b.map UInt8.toNat), rebase_lt (by omega) _, ?_, ?_, ?_⟩
  · unfold base58Encode
    rw [List.map_map]
    apply List.map_congr_left
    intro d hd
    rw [base58Digits_get d (rebase_lt (by omega) _ d hd)]; rfl
  · rw [valueOf_eq, valueOf_eq, valBE_rebase]
  · rw [zerosOf_eq, zerosOf_eq, leadingZeros_rebase]

/-- Digits are determined by base, value and leading zeros. -/
theorem digits_unique {b : Nat} (hb : 1 < b) {x y : List Nat} (hx : ∀ d ∈ x, d < b) (hy : ∀ d ∈ y, d < b)
    (hv : valBE b x = valBE b y) (hz : leadingZeros x = leadingZeros y) : x = y := by
  have h1 := rebase_rebase (b₂ := b) hb hx
  have h2 := rebase_rebase (b₂ := b) hb hy
  have : rebase b b x = rebase b b y := by
    unfold rebase
    rw [hv, hz]
  rw [← h1, ← h2, this]

/-- The description determines the text. -/
theorem Spec.IsBase58.unique {b : Bytes} {t : Str} (h : IsBase58 b t) : t = base58Encode b := by
  obtain ⟨ds, h1, h2, h3, h4⟩ := h
  obtain ⟨es, g1, g2, g3, g4⟩ := base58Encode_spec b
  have : ds = es := digits_unique (b := 58) (by omega) h1 g1
    (by rw [← valueOf_eq, ← valueOf_eq, h3, g3]) (by rw [← zerosOf_eq, ← zerosOf_eq, h4, g4])
  subst this
  have := h2.trans g2.symm
  exact List.map_injective_iff.mpr (Option.some_injective _) this

theorem multibaseEncode58_spec (b : Bytes) : IsMultibase58 b (multibaseEncode58 b) :=
  ⟨_, rfl, base58Encode_spec b⟩

theorem Spec.IsMultibase58.unique {b : Bytes} {t : Str} (h : IsMultibase58 b t) : t = multibaseEncode58 b := by
  obtain ⟨r, rfl, h⟩ := h
  rw [h.unique]; rfl

theorem isMultibase58_iff {b : Bytes} {t : Str} : IsMultibase58 b t ↔ t = multibaseEncode58 b :=
  ⟨fun h => h.unique, fun h => h ▸ multibaseEncode58_spec b⟩

theorem isHex_iff {b : Bytes} {t : Str} : IsHex b t ↔ t = hexEncode b :=
  ⟨fun h => h.unique, fun h => h ▸ hexEncode_spec b⟩

theorem utf8EncodeChar_core (c : Char) : utf8EncodeChar c = String.utf8EncodeChar c := by
  have hc := Char.toNat_lt c
  have hb : ∀ a b : Nat, a = b → byte a = UInt8.ofNat b := fun a b h => by rw [h]; rfl
  unfold utf8EncodeChar String.utf8EncodeChar
  simp only [show c.val.toNat = c.toNat from rfl]
  generalize c.toNat = n at hc
  by_cases h1 : n < 0x80
  · rw [if_pos h1, if_pos (by omega)]; rfl
  · rw [if_neg h1, if_neg (show ¬ n ≤ 127 by omega)]
    by_cases h2 : n < 0x800
    · rw [if_pos h2, if_pos (show n ≤ 2047 by omega), hb _ (n / 64 % 32 + 192) (by omega), hb _ (n % 64 + 128) (by omega)]
    · rw [if_neg h2, if_neg (show ¬ n ≤ 2047 by omega)]
      by_cases h3 : n < 0x10000
      · rw [if_pos h3, if_pos (show n ≤ 65535 by omega), hb _ (n / 4096 % 16 + 224) (by omega),
          hb _ (n / 64 % 64 + 128) (by omega), hb _ (n % 64 + 128) (by omega)]
      · rw [if_neg h3, if_neg (show ¬ n ≤ 65535 by omega), hb _ (n / 262144 % 8 + 240) (by omega),
          hb _ (n / 4096 % 64 + 128) (by omega), hb _ (n / 64 % 64 + 128) (by omega), hb _ (n % 64 + 128) (by omega)]

theorem utf8_eq (s : Str) : utf8 s = utf8Encode s := by
  unfold utf8 utf8Encode
  congr 1
  funext c
  exact (utf8EncodeChar_core c).symm

end Verif
