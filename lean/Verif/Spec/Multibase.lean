import Verif.Spec.HexAny
import Verif.Env

/-
Independent description of multibase texts, and the proof that the model's decoder reads exactly those.
-/

namespace Verif.Spec
open Verif

/-- Prefix characters of the multibase bases other than base58btc (`z`) and lower-case base16 (`f`). -/
def otherBases : List (Char × MBase) :=
  [(Char.ofNat 0, .identity), ('0', .base2), ('7', .base8), ('9', .base10), ('F', .base16Upper),
   ('b', .base32Lower), ('B', .base32Upper), ('c', .base32PadLower), ('C', .base32PadUpper),
   ('v', .base32HexLower), ('V', .base32HexUpper), ('t', .base32HexPadLower), ('T', .base32HexPadUpper),
   ('h', .base32Z), ('k', .base36Lower), ('K', .base36Upper), ('Z', .base58Flickr), ('m', .base64),
   ('M', .base64Pad), ('u', .base64Url), ('U', .base64UrlPad)]

/-- `t` is a multibase text of `bytes` in base `b`. -/
inductive IsMultibase (E : Env) : MBase → Bytes → Str → Prop where
  | base58 {bytes t} (h : IsMultibase58 bytes t) : IsMultibase E .base58Btc bytes t
  | base16 {bytes r} (h : IsHex bytes r) : IsMultibase E .base16Lower bytes ('f' :: r)
  | base16Any {bytes r} (hf : E.mbFold .base16Lower = true) (h : IsHexAny bytes r) : IsMultibase E .base16Lower bytes ('f' :: r)
  | other {c b bytes r} (hc : (c, b) ∈ otherBases) (h : E.mbOther b r = some bytes) : IsMultibase E b bytes (c :: r)

end Verif.Spec

namespace Verif
open Spec

theorem b16Val_iff (c : Char) (n : Nat) : b16Val c = some n ↔ n < 16 ∧ c = hexDigit n := by
  constructor
  · intro h
    unfold b16Val at h
    simp only at h
    split at h
    · cases h
      refine ⟨by omega, Char.eq_of_toNat ?_⟩
      rw [hexDigit_toNat (by omega), if_pos (by omega)]; omega
    · split at h
      · cases h
        refine ⟨by omega, Char.eq_of_toNat ?_⟩
        rw [hexDigit_toNat (by omega), if_neg (by omega)]; omega
      · cases h
  · rintro ⟨hn, rfl⟩
    unfold b16Val
    simp only [hexDigit_toNat hn]
    split
    · rw [if_pos (by omega)]; congr 1; omega
    · rw [if_neg (by omega), if_pos (by omega)]; congr 1; omega

theorem base16Decode_iff (t : Str) (b : Bytes) : base16Decode t = some b ↔ t = hexEncode b := by
  fun_induction base16Decode t generalizing b with
  | case1 =>
    cases b with
    | nil => simp [hexEncode]
    | cons x b => simp [hexEncode_cons]
  | case2 c =>
    cases b with
    | nil => simp [hexEncode]
    | cons x b => simp [hexEncode_cons]
  | case3 a c r x y bs hr hb ha ih =>
    rw [b16Val_iff] at ha hb
    cases b with
    | nil => simp [hexEncode]
    | cons z b =>
      rw [hexEncode_cons]
      simp only [List.cons.injEq, ha.2, hb.2, Option.some.injEq]
      rw [← ih b, hr, Option.some.injEq]
      have hz := UInt8.lt256 z
      constructor
      · rintro ⟨rfl, rfl⟩
        rw [byte_toNat_of_lt (by omega)]
        refine ⟨by congr 1; omega, by congr 1; omega, rfl⟩
      · rintro ⟨h1, h2, rfl⟩
        have := hexDigit_inj ha.1 (by omega) h1
        have := hexDigit_inj hb.1 (by omega) h2
        refine ⟨UInt8.ext_nat ?_, rfl⟩
        rw [byte_toNat_of_lt (by omega)]; omega
  | case4 a c r hx ih =>
    cases b with
    | nil => simp [hexEncode]
    | cons z b =>
      simp only [hexEncode_cons, List.cons.injEq, reduceCtorEq, false_iff]
      rintro ⟨h1, h2, h3⟩
      have hz := UInt8.lt256 z
      refine hx _ _ b ((b16Val_iff a _).mpr ⟨?_, h1⟩) ((b16Val_iff c _).mpr ⟨?_, h2⟩) ((ih b).mpr h3) <;> omega

theorem ofCode_other : ∀ p ∈ otherBases, MBase.ofCode p.1 = some p.2 ∧ p.2 ≠ .base58Btc ∧ p.2 ≠ .base16Lower := by
  decide +kernel

theorem mbaseTable_other : ∀ p ∈ mbaseTable, p = ('z', .base58Btc) ∨ p = ('f', .base16Lower) ∨ p ∈ otherBases := by
  decide +kernel

theorem mbDecode_iff (E : Env) (t : Str) (b : MBase) (bytes : Bytes) :
    E.mbDecode t = some (b, bytes) ↔ IsMultibase E b bytes t := by
  unfold Env.mbDecode
  constructor
  · intro h
    cases t with
    | nil => cases h
    | cons c r =>
      simp only [multibaseDecode] at h
      cases hc : MBase.ofCode c with
      | none => rw [hc] at h; cases h
      | some b' =>
        have hm := mbaseTable_other _ (mem_of_lookup hc)
        rcases hm with e | e | e
        · cases e
          rw [hc] at h
          simp only at h
          obtain ⟨x, hx, e⟩ := Option.map_eq_some_iff.mp h
          cases e
          refine .base58 ⟨r, rfl, ?_⟩
          rw [← base58Encode_decode hx]
          exact base58Encode_spec _
        · cases e
          rw [hc] at h
          simp only at h
          obtain ⟨x, hx, e⟩ := Option.map_eq_some_iff.mp h
          cases e
          cases hf : E.mbFold .base16Lower with
          | true =>
            rw [hf, if_pos rfl] at hx
            exact .base16Any hf ((hexDecode_iff _ _).mp hx)
          | false =>
            rw [hf, if_neg (by decide)] at hx
            exact .base16 (isHex_iff.mpr ((base16Decode_iff _ _).mp hx))
        · obtain ⟨_, n1, n2⟩ := ofCode_other _ e
          rw [hc] at h
          split at h
          · cases ‹some b' = none›
          · cases ‹some b' = _›; exact absurd rfl n1
          · cases ‹some b' = _›; exact absurd rfl n2
          · cases ‹some b' = _›
            obtain ⟨x, hx, e'⟩ := Option.map_eq_some_iff.mp h
            cases e'
            exact .other e hx
  · intro h
    cases h with
    | base58 h => rw [h.unique]; exact multibaseDecode_encode58 _ _ _
    | base16 h =>
      simp only [multibaseDecode, ofCode_f, h.unique, hexDecode_encode, ite_self,
        (base16Decode_iff _ _).mpr rfl, Option.map_some]
    | base16Any hf h =>
      simp only [multibaseDecode, ofCode_f, hf, if_true, (hexDecode_iff _ _).mpr h, Option.map_some]
    | other hc h =>
      obtain ⟨n0, n1, n2⟩ := ofCode_other _ hc
      simp only [multibaseDecode]
      simp only at n0 n1 n2
      rw [n0]
      split
      · cases ‹some b = none›
      · cases ‹some b = _›; exact absurd rfl n1
      · cases ‹some b = _›; exact absurd rfl n2
      · cases ‹some b = _›
        rw [h]; rfl

theorem mbDecode_none (E : Env) (t : Str) : E.mbDecode t = none ↔ ∀ b bytes, ¬ IsMultibase E b bytes t := by
  constructor
  · intro h b bytes g
    rw [← mbDecode_iff, h] at g; cases g
  · intro h
    cases hd : E.mbDecode t with
    | none => rfl
    | some p => exact absurd ((mbDecode_iff E t p.1 p.2).mp hd) (h _ _)

end Verif
