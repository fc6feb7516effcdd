import Verif.Json.Raw
import Verif.Codec.Hex

/-
JSON string tokens: the escaping `serde_json` writes (crate serde_json 1.x, `format_escaped_str`; also
what `serde_jcs` 0.1 writes, core/src/verifiable/proof/types.rs:131) and the unescaping it performs when
a string is deserialised (`SliceRead::parse_str`).
-/

namespace Verif

/-- Lower-case hex digit as a byte. -/
def hexByte (n : Nat) : UInt8 := byte (if n < 10 then 0x30 + n else 0x61 + (n - 10))

/-- Escaping of one byte (`ESCAPE` table of serde_json): quote, backslash and control bytes only. -/
def escByte (b : UInt8) : Bytes :=
  if b = 0x22 then [0x5c, 0x22]
  else if b = 0x5c then [0x5c, 0x5c]
  else if b = 0x08 then [0x5c, 0x62]
  else if b = 0x09 then [0x5c, 0x74]
  else if b = 0x0a then [0x5c, 0x6e]
  else if b = 0x0c then [0x5c, 0x66]
  else if b = 0x0d then [0x5c, 0x72]
  else if b.toNat < 0x20 then [0x5c, 0x75, 0x30, 0x30, hexByte (b.toNat / 16), hexByte (b.toNat % 16)]
  else [b]

/-- Escaping of the bytes of a string. -/
def escape : Bytes → Bytes
  | [] => []
  | b :: r => escByte b ++ escape r

/-- Raw token of a string. -/
def encStr (s : Str) : Bytes := escape (utf8Encode s)

/-- Value of a hex digit byte (either case). -/
def hexByteVal (b : UInt8) : Nat :=
  if b.toNat ≤ 0x39 then b.toNat - 0x30
  else if b.toNat ≤ 0x46 then b.toNat - 0x41 + 10
  else b.toNat - 0x61 + 10

/-- The byte a simple escape stands for. -/
def simpleEsc (e : UInt8) : UInt8 :=
  if e = 0x62 then 0x08
  else if e = 0x66 then 0x0c
  else if e = 0x6e then 0x0a
  else if e = 0x72 then 0x0d
  else if e = 0x74 then 0x09
  else e

/-- `\u` code unit. -/
def hex4 (a b c d : UInt8) : Nat :=
  hexByteVal a * 4096 + hexByteVal b * 256 + hexByteVal c * 16 + hexByteVal d

/-- `parse_str` on a token that `scanStr` accepted: resolves escapes; a lone surrogate is an error. -/
def unescape : Bytes → Option Bytes
  | [] => some []
  | b :: r =>
    if b = 0x5c then
      match r with
      | [] => none
      | e :: r' =>
        if e = 0x75 then
          match r' with
          | h1 :: h2 :: h3 :: h4 :: r'' =>
            if 0xDC00 ≤ hex4 h1 h2 h3 h4 ∧ hex4 h1 h2 h3 h4 ≤ 0xDFFF then none
            else if 0xD800 ≤ hex4 h1 h2 h3 h4 ∧ hex4 h1 h2 h3 h4 ≤ 0xDBFF then
              match r'' with
              | x :: u :: g1 :: g2 :: g3 :: g4 :: r3 =>
                if x = 0x5c ∧ u = 0x75 ∧ 0xDC00 ≤ hex4 g1 g2 g3 g4 ∧ hex4 g1 g2 g3 g4 ≤ 0xDFFF then
                  (unescape r3).map
                    (utf8EncodeChar (Char.ofNat
                      (0x10000 + (hex4 h1 h2 h3 h4 - 0xD800) * 0x400 + (hex4 g1 g2 g3 g4 - 0xDC00))) ++ ·)
                else none
              | _ => none
            else (unescape r'').map (utf8EncodeChar (Char.ofNat (hex4 h1 h2 h3 h4)) ++ ·)
          | _ => none
        else (unescape r').map (simpleEsc e :: ·)
    else (unescape r).map (b :: ·)

/-- Deserialise a string token as `String`: unescape, then check UTF-8. -/
def decStr (raw : Bytes) : Option Str := (unescape raw).bind utf8Decode

/-! ### Properties -/

theorem hexByte_spec (n : Nat) (h : n < 16) : isHexByte (hexByte n) = true ∧ hexByteVal (hexByte n) = n := by
  have : ∀ n : Fin 16, isHexByte (hexByte n.1) = true ∧ hexByteVal (hexByte n.1) = n.1 := by decide
  exact this ⟨n, h⟩

/-- The three forms of an escaped byte. -/
theorem escByte_cases (b : UInt8) :
    (∃ e, escByte b = [0x5c, e] ∧ isSimpleEsc e = true ∧ simpleEsc e = b ∧ e ≠ 0x75) ∨
    (b.toNat < 0x20 ∧
      escByte b = [0x5c, 0x75, 0x30, 0x30, hexByte (b.toNat / 16), hexByte (b.toNat % 16)]) ∨
    (escByte b = [b] ∧ b ≠ 0x22 ∧ b ≠ 0x5c ∧ ¬ b.toNat < 0x20) := by
  unfold escByte
  by_cases h1 : b = 0x22
  · exact Or.inl ⟨0x22, by simp [h1], by decide, by rw [h1]; decide, by decide⟩
  by_cases h2 : b = 0x5c
  · exact Or.inl ⟨0x5c, by simp [h2], by decide, by rw [h2]; decide, by decide⟩
  by_cases h3 : b = 0x08
  · exact Or.inl ⟨0x62, by simp [h3], by decide, by rw [h3]; decide, by decide⟩
  by_cases h4 : b = 0x09
  · exact Or.inl ⟨0x74, by simp [h4], by decide, by rw [h4]; decide, by decide⟩
  by_cases h5 : b = 0x0a
  · exact Or.inl ⟨0x6e, by simp [h5], by decide, by rw [h5]; decide, by decide⟩
  by_cases h6 : b = 0x0c
  · exact Or.inl ⟨0x66, by simp [h6], by decide, by rw [h6]; decide, by decide⟩
  by_cases h7 : b = 0x0d
  · exact Or.inl ⟨0x72, by simp [h7], by decide, by rw [h7]; decide, by decide⟩
  right
  by_cases h8 : b.toNat < 0x20
  · left
    simp [h1, h2, h3, h4, h5, h6, h7, h8]
  · right
    refine ⟨?_, h1, h2, h8⟩
    simp only [h1, h2, h3, h4, h5, h6, h7, h8, if_false]

/-- Escaped text is read back as one token, whatever follows. -/
theorem scanStr_escape (s : Bytes) : IsStrTok (escape s) := by
  intro rest
  induction s with
  | nil =>
    rw [escape, List.nil_append, scanStr.eq_def]
    rfl
  | cons b s ih =>
    simp only [escape]
    rcases escByte_cases b with ⟨e, h, h1, _, _⟩ | ⟨h8, h⟩ | ⟨h, h1, h2, h8⟩
    · rw [h]
      simp only [List.cons_append, List.nil_append]
      rw [scanStr.eq_def]
      simp only [h1, if_true, ih, show ((0x5c : UInt8) = 0x22) = False by decide, if_false]
      rfl
    · have h16 : b.toNat / 16 < 16 := by omega
      have h16' : b.toNat % 16 < 16 := by omega
      rw [h]
      simp only [List.cons_append, List.nil_append, scanStr, ih, (hexByte_spec _ h16).1, (hexByte_spec _ h16').1,
        show ((0x5c : UInt8) = 0x22) = False by decide, if_false, if_true,
        show isSimpleEsc 0x75 = false by decide, show isHexByte 0x30 = true by decide, Bool.and_self,
        show (false = true) = False by decide]
      rfl
    · rw [h]
      simp only [List.cons_append, List.nil_append]
      rw [scanStr.eq_def]
      simp only [if_neg h1, if_neg h2, if_neg h8, ih]
      rfl

/-- Unescaping inverts escaping. -/
theorem unescape_escape (s : Bytes) : unescape (escape s) = some s := by
  induction s with
  | nil => rw [escape, unescape]
  | cons b s ih =>
    simp only [escape]
    rcases escByte_cases b with ⟨e, h, h1, hs, hu⟩ | ⟨h8, h⟩ | ⟨h, h1, h2, h8⟩
    · rw [h]
      simp only [List.cons_append, List.nil_append]
      rw [unescape.eq_def]
      simp only [if_true, if_neg hu, ih, hs]
      rfl
    · have h16 : b.toNat / 16 < 16 := by omega
      have h16' : b.toNat % 16 < 16 := by omega
      have hv : hex4 0x30 0x30 (hexByte (b.toNat / 16)) (hexByte (b.toNat % 16)) = b.toNat := by
        simp only [hex4, (hexByte_spec _ h16).2, (hexByte_spec _ h16').2,
          show hexByteVal 0x30 = 0 by decide]
        omega
      have hc : utf8EncodeChar (Char.ofNat b.toNat) = [b] := by
        have : (Char.ofNat b.toNat).toNat = b.toNat := Char.toNat_ofNat_valid (Or.inl (by omega))
        simp [utf8EncodeChar, this, show b.toNat < 128 by omega]
      rw [h]
      simp only [List.cons_append, List.nil_append]
      rw [unescape.eq_def]
      simp only [if_true, hv, hc, ih,
        show ¬ (0xDC00 ≤ b.toNat ∧ b.toNat ≤ 0xDFFF) by omega,
        show ¬ (0xD800 ≤ b.toNat ∧ b.toNat ≤ 0xDBFF) by omega, if_false]
      rfl
    · rw [h]
      simp only [List.cons_append, List.nil_append]
      rw [unescape.eq_def]
      simp only [if_neg h2, ih]
      rfl

theorem isStrTok_encStr (s : Str) : IsStrTok (encStr s) := scanStr_escape _

/-- Reading back a written string gives the string. -/
theorem decStr_encStr (s : Str) : decStr (encStr s) = some s := by
  simp [decStr, encStr, unescape_escape, utf8Decode_encode]

theorem encStr_injective {s t : Str} (h : encStr s = encStr t) : s = t := by
  have := decStr_encStr s
  rw [h, decStr_encStr] at this
  exact (Option.some.inj this).symm

example : encStr "a\"b\nc".toList = utf8Encode "a\\\"b\\nc".toList := by decide

end Verif
