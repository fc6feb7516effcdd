import Verif.Base

/-
The `hex` crate (`hex::encode`, `hex::decode`), used by core/src/account/mod.rs:73,92 and
core/src/verifiable/proof/serialize.rs:44, and blake3's `Hash::to_hex` (core/src/did/mod.rs:68).
-/

namespace Verif

/-- Lower-case hex digit of a value below 16. -/
def hexDigit (n : Nat) : Char := if n < 10 then Char.ofNat (48 + n) else Char.ofNat (87 + n)

/-- Value of a hex digit of either case. -/
def hexVal (c : Char) : Option Nat :=
  let n := c.toNat
  if 48 ≤ n ∧ n ≤ 57 then some (n - 48)
  else if 97 ≤ n ∧ n ≤ 102 then some (n - 87)
  else if 65 ≤ n ∧ n ≤ 70 then some (n - 55)
  else none

/-- `hex::encode`: two lower-case digits per byte, high nibble first. -/
def hexEncode (bs : Bytes) : Str :=
  bs.flatMap fun b => [hexDigit (b.toNat / 16), hexDigit (b.toNat % 16)]

/-- `hex::decode`: both cases accepted; odd length or a foreign character is an error (`none`). -/
def hexDecode : Str → Option Bytes
  | [] => some []
  | [_] => none
  | a :: b :: r =>
    match hexVal a, hexVal b, hexDecode r with
    | some x, some y, some t => some (byte (x * 16 + y) :: t)
    | _, _, _ => none

theorem hexDigit_toNat {n : Nat} (h : n < 16) :
    (hexDigit n).toNat = if n < 10 then 48 + n else 87 + n := by
  unfold hexDigit
  split <;> rw [Char.toNat_ofNat_valid] <;> (left; omega)

theorem hexVal_hexDigit {n : Nat} (h : n < 16) : hexVal (hexDigit n) = some n := by
  simp only [hexVal, hexDigit_toNat h]
  split
  · rw [if_pos (by omega)]; congr 1; omega
  · rw [if_neg (by omega), if_pos (by omega)]; congr 1; omega

@[simp] theorem hexDecode_encode (bs : Bytes) : hexDecode (hexEncode bs) = some bs := by
  induction bs with
  | nil => rfl
  | cons b bs ih =>
    have hb := UInt8.lt256 b
    have e : hexEncode (b :: bs) = hexDigit (b.toNat / 16) :: hexDigit (b.toNat % 16) :: hexEncode bs := rfl
    rw [e, hexDecode, hexVal_hexDigit (by omega), hexVal_hexDigit (by omega), ih]
    simp only [Option.some.injEq, List.cons.injEq, and_true]
    apply UInt8.ext_nat
    rw [byte_toNat]; omega

theorem hexEncode_injective {a b : Bytes} (h : hexEncode a = hexEncode b) : a = b := by
  have := congrArg hexDecode h
  simpa using this

@[simp] theorem hexEncode_length (bs : Bytes) : (hexEncode bs).length = 2 * bs.length := by
  induction bs with
  | nil => rfl
  | cons b bs ih =>
    have e : hexEncode (b :: bs) = hexDigit (b.toNat / 16) :: hexDigit (b.toNat % 16) :: hexEncode bs := rfl
    rw [e]; simp only [List.length_cons, ih]; omega

/-- The characters of an encoding are lower-case hex digits. -/
theorem hexEncode_chars (bs : Bytes) :
    ∀ c ∈ hexEncode bs, (48 ≤ c.toNat ∧ c.toNat ≤ 57) ∨ (97 ≤ c.toNat ∧ c.toNat ≤ 102) := by
  intro c hc
  simp only [hexEncode, List.mem_flatMap] at hc
  obtain ⟨b, _, hc⟩ := hc
  have hb := UInt8.lt256 b
  simp only [List.mem_cons, List.not_mem_nil, or_false] at hc
  rcases hc with rfl | rfl <;>
  · rw [hexDigit_toNat (by omega)]; split <;> omega

theorem hexDecode_length {s : Str} {bs : Bytes} (h : hexDecode s = some bs) :
    s.length = 2 * bs.length := by
  fun_induction hexDecode s generalizing bs with
  | case1 => simp_all
  | case2 => simp_all
  | case3 a b r =>
    rename_i ih
    simp at h; subst h; have := ih ‹_›; simp at *; omega
  | case4 => simp_all

end Verif
