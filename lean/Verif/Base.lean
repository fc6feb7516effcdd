/-
Strings, bytes, UTF-8 and `str::split`.

Rust `String`/`&str` is modelled as a list of Unicode scalar values (`Str`; Lean's `Char` is exactly a
Unicode scalar value), `Vec<u8>`/`&[u8]` as a list of bytes (`Bytes`).
-/

namespace Verif

/-- Rust `String` / `&str`. -/
abbrev Str := List Char

/-- Rust `Vec<u8>` / `&[u8]`. -/
abbrev Bytes := List UInt8

/-- The byte with value `n` (used only with `n < 256`). -/
def byte (n : Nat) : UInt8 := UInt8.ofNat n

@[simp] theorem byte_toNat (n : Nat) : (byte n).toNat = n % 256 := by
  simp [byte]

@[simp] theorem byte_of_toNat (b : UInt8) : byte b.toNat = b := by
  simp [byte]

theorem byte_toNat_of_lt {n : Nat} (h : n < 256) : (byte n).toNat = n := by
  rw [byte_toNat, Nat.mod_eq_of_lt h]

theorem UInt8.lt256 (b : UInt8) : b.toNat < 256 := b.toNat_lt

theorem UInt8.ext_nat {a b : UInt8} (h : a.toNat = b.toNat) : a = b := UInt8.toNat_inj.mp h

/-! ### UTF-8 (`str::as_bytes`, `String::from_utf8`) -/

/-- UTF-8 encoding of one scalar value (Rust `char::encode_utf8`; standard library). -/
def utf8EncodeChar (c : Char) : Bytes :=
  let n := c.toNat
  if n < 0x80 then [byte n]
  else if n < 0x800 then [byte (0xC0 + n / 64), byte (0x80 + n % 64)]
  else if n < 0x10000 then
    [byte (0xE0 + n / 4096), byte (0x80 + n / 64 % 64), byte (0x80 + n % 64)]
  else
    [byte (0xF0 + n / 262144), byte (0x80 + n / 4096 % 64), byte (0x80 + n / 64 % 64),
      byte (0x80 + n % 64)]

/-- `str::as_bytes` (standard library). -/
def utf8Encode (s : Str) : Bytes := s.flatMap utf8EncodeChar

/-- A UTF-8 continuation byte. -/
def isCont (b : UInt8) : Bool := 0x80 ≤ b.toNat && b.toNat < 0xC0

/-- `String::from_utf8` (standard library); `none` is `Err(FromUtf8Error)`. -/
def utf8Decode : Bytes → Option Str
  | [] => some []
  | b0 :: r0 =>
    if b0.toNat < 0x80 then (utf8Decode r0).map (Char.ofNat b0.toNat :: ·)
    else match r0 with
    | [] => none
    | b1 :: r1 =>
      if isCont b1 then
        if 0xC2 ≤ b0.toNat ∧ b0.toNat < 0xE0 then
          (utf8Decode r1).map (Char.ofNat ((b0.toNat - 0xC0) * 64 + (b1.toNat - 0x80)) :: ·)
        else match r1 with
        | [] => none
        | b2 :: r2 =>
          if isCont b2 then
            if 0xE0 ≤ b0.toNat ∧ b0.toNat < 0xF0 then
              let n := (b0.toNat - 0xE0) * 4096 + (b1.toNat - 0x80) * 64 + (b2.toNat - 0x80)
              if 0x800 ≤ n ∧ n.isValidChar then (utf8Decode r2).map (Char.ofNat n :: ·) else none
            else match r2 with
            | [] => none
            | b3 :: r3 =>
              if isCont b3 then
                let n := (b0.toNat - 0xF0) * 262144 + (b1.toNat - 0x80) * 4096
                  + (b2.toNat - 0x80) * 64 + (b3.toNat - 0x80)
                if 0xF0 ≤ b0.toNat ∧ 0x10000 ≤ n ∧ n.isValidChar then
                  (utf8Decode r3).map (Char.ofNat n :: ·)
                else none
              else none
          else none
      else none

theorem Char.ofNat_toNat' (c : Char) : Char.ofNat c.toNat = c := by
  simp

theorem Char.toNat_lt (c : Char) : c.toNat < 0x110000 := by
  have := c.valid
  simp only [UInt32.isValidChar, Nat.isValidChar] at this
  unfold Char.toNat
  omega

theorem Char.isValid (c : Char) : Nat.isValidChar c.toNat := c.valid

theorem Char.toNat_ofNat_valid {n : Nat} (h : n.isValidChar) : (Char.ofNat n).toNat = n := by
  simp [Char.ofNat, h, Char.toNat, Char.ofNatAux]

theorem utf8Decode_encodeChar (c : Char) (r : Bytes) :
    utf8Decode (utf8EncodeChar c ++ r) = (utf8Decode r).map (c :: ·) := by
  have hlt := Char.toNat_lt c
  have hv := Char.isValid c
  have hof := Char.ofNat_toNat' c
  simp only [utf8EncodeChar]
  split
  · rename_i h
    simp only [List.cons_append, List.nil_append]
    rw [utf8Decode.eq_def]; dsimp only
    rw [byte_toNat_of_lt (by omega), if_pos h, hof]
  · rename_i h0
    split
    · rename_i h
      simp only [List.cons_append, List.nil_append]
      rw [utf8Decode.eq_def]; dsimp only
      rw [byte_toNat_of_lt (n := 0xC0 + c.toNat / 64) (by omega), if_neg (by omega)]
      simp only [isCont, byte_toNat_of_lt (n := 0x80 + c.toNat % 64) (by omega)]
      rw [if_pos (by simp; omega), if_pos (by omega)]
      have : (192 + c.toNat / 64 - 192) * 64 + (128 + c.toNat % 64 - 128) = c.toNat := by omega
      rw [this, hof]
    · rename_i h1
      split
      · rename_i h
        simp only [List.cons_append, List.nil_append]
        rw [utf8Decode.eq_def]; dsimp only
        rw [byte_toNat_of_lt (n := 0xE0 + c.toNat / 4096) (by omega), if_neg (by omega)]
        simp only [isCont, byte_toNat_of_lt (n := 0x80 + c.toNat % 64) (by omega),
          byte_toNat_of_lt (n := 0x80 + c.toNat / 64 % 64) (by omega)]
        rw [if_pos (by simp; omega), if_neg (by omega), if_pos (by simp; omega), if_pos (by omega)]
        have : (224 + c.toNat / 4096 - 224) * 4096 + (128 + c.toNat / 64 % 64 - 128) * 64 +
          (128 + c.toNat % 64 - 128) = c.toNat := by omega
        rw [this, hof, if_pos ⟨by omega, hv⟩]
      · rename_i h2
        simp only [List.cons_append, List.nil_append]
        rw [utf8Decode.eq_def]; dsimp only
        rw [byte_toNat_of_lt (n := 0xF0 + c.toNat / 262144) (by omega), if_neg (by omega)]
        simp only [isCont, byte_toNat_of_lt (n := 0x80 + c.toNat % 64) (by omega),
          byte_toNat_of_lt (n := 0x80 + c.toNat / 64 % 64) (by omega),
          byte_toNat_of_lt (n := 0x80 + c.toNat / 4096 % 64) (by omega)]
        rw [if_pos (by simp; omega), if_neg (by omega), if_pos (by simp; omega), if_neg (by omega),
          if_pos (by simp; omega)]
        have : (240 + c.toNat / 262144 - 240) * 262144 + (128 + c.toNat / 4096 % 64 - 128) * 4096 +
          (128 + c.toNat / 64 % 64 - 128) * 64 + (128 + c.toNat % 64 - 128) = c.toNat := by omega
        rw [this, hof, if_pos ⟨by omega, by omega, hv⟩]

/-- `String::from_utf8(s.into_bytes()) == Ok(s)`. -/
@[simp] theorem utf8Decode_encode (s : Str) : utf8Decode (utf8Encode s) = some s := by
  induction s with
  | nil => rfl
  | cons c s ih =>
    show utf8Decode (utf8EncodeChar c ++ utf8Encode s) = _
    rw [utf8Decode_encodeChar, ih]; rfl

theorem utf8Encode_injective {a b : Str} (h : utf8Encode a = utf8Encode b) : a = b := by
  have := congrArg utf8Decode h
  simpa using this

@[simp] theorem utf8Encode_nil : utf8Encode [] = [] := rfl
theorem utf8Encode_cons (c : Char) (s : Str) :
    utf8Encode (c :: s) = utf8EncodeChar c ++ utf8Encode s := rfl
theorem utf8Encode_append (a b : Str) : utf8Encode (a ++ b) = utf8Encode a ++ utf8Encode b := by
  simp [utf8Encode]

/-- Bytes accepted by `String::from_utf8` are exactly the encoding of the resulting text. -/
theorem utf8Encode_decode {bs : Bytes} {s : Str} (h : utf8Decode bs = some s) : utf8Encode s = bs := by
  fun_induction utf8Decode bs generalizing s with
  | case1 => simp_all
  | case2 b0 r0 h0 ih =>
    obtain ⟨t, ht, rfl⟩ := Option.map_eq_some_iff.mp h
    rw [utf8Encode_cons, ih ht]
    simp [utf8EncodeChar, Char.toNat_ofNat_valid (n := b0.toNat) (by left; omega), h0]
  | case3 => simp_all
  | case4 b0 h0 b1 r1 h1 h2 ih =>
    obtain ⟨t, ht, rfl⟩ := Option.map_eq_some_iff.mp h
    simp only [isCont, Bool.and_eq_true, decide_eq_true_eq] at h1
    rw [utf8Encode_cons, ih ht]
    simp only [utf8EncodeChar]
    rw [Char.toNat_ofNat_valid (by left; omega), if_neg (by omega), if_pos (by omega)]
    simp only [List.cons_append, List.nil_append, List.cons.injEq, and_true]
    constructor <;> (apply UInt8.ext_nat; rw [byte_toNat]; omega)
  | case5 => simp_all
  | case6 b0 h0 b1 h1 h2 b2 r2 h3 h4 =>
    rename_i n hn ih
    obtain ⟨t, ht, rfl⟩ := Option.map_eq_some_iff.mp h
    simp only [isCont, Bool.and_eq_true, decide_eq_true_eq] at h1 h3
    rw [utf8Encode_cons, ih ht]
    simp only [utf8EncodeChar]
    rw [Char.toNat_ofNat_valid hn.2, if_neg (by omega), if_neg (by omega), if_pos (by omega)]
    simp only [List.cons_append, List.nil_append, List.cons.injEq, and_true]
    refine ⟨?_, ?_, ?_⟩ <;> (apply UInt8.ext_nat; rw [byte_toNat]; omega)
  | case7 => simp_all
  | case8 => simp_all
  | case9 b0 h0 b1 h1 h2 b2 h3 h4 b3 r3 h5 =>
    rename_i n hn ih
    obtain ⟨t, ht, rfl⟩ := Option.map_eq_some_iff.mp h
    simp only [isCont, Bool.and_eq_true, decide_eq_true_eq] at h1 h3 h5
    have hlt : n < 0x110000 := by have := hn.2.2; simp only [Nat.isValidChar] at this; omega
    rw [utf8Encode_cons, ih ht]
    simp only [utf8EncodeChar]
    rw [Char.toNat_ofNat_valid hn.2.2, if_neg (by omega), if_neg (by omega), if_neg (by omega)]
    simp only [List.cons_append, List.nil_append, List.cons.injEq, and_true]
    refine ⟨?_, ?_, ?_, ?_⟩ <;> (apply UInt8.ext_nat; rw [byte_toNat]; omega)
  | case10 => simp_all
  | case11 => simp_all
  | case12 => simp_all
  | case13 => simp_all

/-! ### `str::split` with a one-character pattern and `[String]::join` -/

/-- `s.split(sep)` collected (standard library): never empty. -/
def splitOn (sep : Char) : Str → List Str
  | [] => [[]]
  | c :: cs =>
    if c = sep then [] :: splitOn sep cs
    else match splitOn sep cs with
      | [] => [[c]]
      | h :: t => (c :: h) :: t

/-- `parts.join(sep)` with a one-character separator (standard library). -/
def joinWith (sep : Char) : List Str → Str
  | [] => []
  | [a] => a
  | a :: b :: r => a ++ sep :: joinWith sep (b :: r)

theorem splitOn_ne_nil (sep : Char) (s : Str) : splitOn sep s ≠ [] := by
  cases s with
  | nil => simp [splitOn]
  | cons c cs =>
    simp only [splitOn]
    split
    · simp
    · split <;> simp

theorem joinWith_splitOn (sep : Char) (s : Str) : joinWith sep (splitOn sep s) = s := by
  induction s with
  | nil => rfl
  | cons c cs ih =>
    simp only [splitOn]
    split
    · rename_i h
      cases hs : splitOn sep cs with
      | nil => exact absurd hs (splitOn_ne_nil _ _)
      | cons a r => rw [hs] at ih; simp [joinWith, ih, h]
    · split
      · rename_i h; exact absurd h (splitOn_ne_nil _ _)
      · rename_i a r hs
        rw [hs] at ih
        cases r with
        | nil => simp only [joinWith] at ih ⊢; rw [ih]
        | cons b r => simp only [joinWith] at ih ⊢; rw [← ih]; simp

theorem splitOn_no_sep (sep : Char) (s : Str) : ∀ p ∈ splitOn sep s, sep ∉ p := by
  induction s with
  | nil => simp [splitOn]
  | cons c cs ih =>
    simp only [splitOn]
    split
    · intro p hp
      rcases List.mem_cons.mp hp with rfl | hp
      · simp
      · exact ih p hp
    · rename_i hc
      split
      · intro p hp; simp at hp; subst hp; simpa using fun h => hc h.symm
      · rename_i a r hs
        intro p hp
        rcases List.mem_cons.mp hp with rfl | hp
        · have := ih a (by simp [hs])
          simp only [List.mem_cons, not_or]
          exact ⟨fun h => hc h.symm, this⟩
        · exact ih p (by simp [hs, hp])

theorem splitOn_of_not_mem {sep : Char} {s : Str} (h : sep ∉ s) : splitOn sep s = [s] := by
  induction s with
  | nil => rfl
  | cons c cs ih =>
    simp only [List.mem_cons, not_or] at h
    simp only [splitOn, if_neg (Ne.symm h.1), ih h.2]

theorem splitOn_append_sep {sep : Char} {a : Str} (h : sep ∉ a) (b : Str) :
    splitOn sep (a ++ sep :: b) = a :: splitOn sep b := by
  induction a with
  | nil => simp [splitOn]
  | cons c cs ih =>
    simp only [List.mem_cons, not_or] at h
    simp only [List.cons_append, splitOn, if_neg (Ne.symm h.1), ih h.2]

theorem splitOn_joinWith {sep : Char} {l : List Str} (hne : l ≠ []) (h : ∀ p ∈ l, sep ∉ p) :
    splitOn sep (joinWith sep l) = l := by
  induction l with
  | nil => exact absurd rfl hne
  | cons a r ih =>
    cases r with
    | nil => exact splitOn_of_not_mem (h a (by simp))
    | cons b r =>
      simp only [joinWith]
      rw [splitOn_append_sep (h a (by simp)), ih (by simp) (fun p hp => h p (by simp [hp]))]

/-- Number of parts is one more than the number of separators. -/
theorem length_splitOn (sep : Char) (s : Str) : (splitOn sep s).length = s.count sep + 1 := by
  induction s with
  | nil => rfl
  | cons c cs ih =>
    simp only [splitOn]
    split
    · rename_i h; subst h; simp [ih]
    · rename_i h
      split
      · rename_i h'; exact absurd h' (splitOn_ne_nil _ _)
      · rename_i a r hs
        rw [hs] at ih
        simpa [List.count_cons, h] using ih

end Verif
