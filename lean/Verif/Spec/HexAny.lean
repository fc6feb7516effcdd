import Verif.Spec.Text

/-
Hex text with letters of either case.
-/

namespace Verif.Spec
open Verif

/-- Lower case of the letters `A`–`F`. -/
def lowerHex (c : Char) : Char := if 65 ≤ c.toNat ∧ c.toNat ≤ 70 then Char.ofNat (c.toNat + 32) else c

/-- `t` is a hex text of `b`, letters in either case. -/
def IsHexAny (b : Bytes) (t : Str) : Prop := IsHex b (t.map lowerHex)

end Verif.Spec

namespace Verif
open Spec

theorem Char.eq_of_toNat {a b : Char} (h : a.toNat = b.toNat) : a = b := by
  rw [← Char.ofNat_toNat' a, h, Char.ofNat_toNat']

theorem hexVal_iff (c : Char) (n : Nat) : hexVal c = some n ↔ n < 16 ∧ lowerHex c = hexDigit n := by
  constructor
  · intro h
    unfold hexVal at h
    simp only at h
    split at h
    · cases h
      refine ⟨by omega, ?_⟩
      unfold lowerHex
      rw [if_neg (by omega)]
      apply Char.eq_of_toNat
      rw [hexDigit_toNat (by omega), if_pos (by omega)]; omega
    · split at h
      · cases h
        refine ⟨by omega, ?_⟩
        unfold lowerHex
        rw [if_neg (by omega)]
        apply Char.eq_of_toNat
        rw [hexDigit_toNat (by omega), if_neg (by omega)]; omega
      · split at h
        · cases h
          refine ⟨by omega, ?_⟩
          unfold lowerHex
          rw [if_pos (by omega)]
          apply Char.eq_of_toNat
          rw [hexDigit_toNat (by omega), if_neg (by omega), Char.toNat_ofNat_valid (by left; omega)]; omega
        · cases h
  · rintro ⟨hn, h⟩
    have h' := congrArg Char.toNat h
    rw [hexDigit_toNat hn] at h'
    unfold lowerHex at h'
    unfold hexVal
    simp only
    split at h'
    · rw [Char.toNat_ofNat_valid (by left; omega)] at h'
      split at h'
      · omega
      · rw [if_neg (by omega), if_neg (by omega), if_pos (by omega)]; congr 1; omega
    · split at h'
      · rw [if_pos (by omega)]; congr 1; omega
      · rw [if_neg (by omega), if_pos (by omega)]; congr 1; omega

theorem hexEncode_cons (x : UInt8) (b : Bytes) :
    hexEncode (x :: b) = hexDigit (x.toNat / 16) :: hexDigit (x.toNat % 16) :: hexEncode b := rfl

theorem hexDigit_inj {m n : Nat} (hm : m < 16) (hn : n < 16) (h : hexDigit m = hexDigit n) : m = n := by
  have := congrArg hexVal h
  rw [hexVal_hexDigit hm, hexVal_hexDigit hn] at this
  exact Option.some.inj this

/-- The model's decoder accepts exactly the hex texts of either case. -/
theorem hexDecode_iff (t : Str) (b : Bytes) : hexDecode t = some b ↔ IsHexAny b t := by
  unfold IsHexAny
  rw [isHex_iff]
  fun_induction hexDecode t generalizing b with
  | case1 =>
    cases b with
    | nil => simp [hexEncode]
    | cons x b => simp [hexEncode_cons]
  | case2 c =>
    cases b with
    | nil => simp [hexEncode]
    | cons x b => simp [hexEncode_cons]
  | case3 a c r x y bs hr hb ha ih =>
    rw [hexVal_iff] at ha hb
    cases b with
    | nil => simp [hexEncode]
    | cons z b =>
      rw [hexEncode_cons]
      simp only [List.map_cons, List.cons.injEq, ha.2, hb.2, Option.some.injEq]
      rw [← ih b, hr, Option.some.injEq]
      have hz := UInt8.lt256 z
      constructor
      · rintro ⟨rfl, rfl⟩
        rw [byte_toNat_of_lt (by omega)]
        refine ⟨by congr 1; omega, by congr 1; omega, rfl⟩
      · rintro ⟨h1, h2, rfl⟩
        have := hexDigit_inj ha.1 (by omega) h1
        have := hexDigit_inj hb.1 (by omega) h2
        refine ⟨UInt8.ext_nat ?_, rfl⟩
        rw [byte_toNat_of_lt (by omega)]; omega
  | case4 a c r hx ih =>
    cases b with
    | nil => simp [hexEncode]
    | cons z b =>
      simp only [hexEncode_cons, List.map_cons, List.cons.injEq, reduceCtorEq, false_iff]
      rintro ⟨h1, h2, h3⟩
      have hz := UInt8.lt256 z
      refine hx _ _ b ((hexVal_iff a _).mpr ⟨?_, h1⟩) ((hexVal_iff c _).mpr ⟨?_, h2⟩) ((ih b).mpr h3) <;> omega

theorem utf8Decode_iff (b : Bytes) (s : Str) : utf8Decode b = some s ↔ b = Spec.utf8 s := by
  rw [utf8_eq]
  constructor
  · intro h; exact (utf8Encode_decode h).symm
  · rintro rfl; exact utf8Decode_encode s

end Verif
