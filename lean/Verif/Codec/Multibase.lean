import Verif.Base
import Verif.Codec.Hex
import Mathlib.Data.Nat.Digits.Lemmas

/-
The `multibase` crate (version ~0.9, core/Cargo.toml:21): `multibase::encode(Base58Btc, ..)` and
`multibase::decode(..)`.

Base58btc is modelled concretely (big-endian base conversion with one leading `1` per leading zero
byte, as in the `base-x` crate multibase uses). Base16 is modelled concretely because it is used to
exhibit alternative spellings; whether it takes letters of either case is a parameter `fold`. The remaining bases are a
parameter `other`. All of them are written out in `Verif/Concrete/Bases.lean`.
-/

namespace Verif

/-! ### Positional base conversion -/

/-- Value of a big-endian digit list (`BigUint::mul_add` loop). -/
def valBE (b : Nat) (ds : List Nat) : Nat := Nat.ofDigits b ds.reverse

/-- Big-endian digits, no leading zero, empty for 0. -/
def digitsBE (b n : Nat) : List Nat := (Nat.digits b n).reverse

/-- Number of leading zero digits. -/
def leadingZeros : List Nat → Nat
  | 0 :: r => leadingZeros r + 1
  | _ => 0

/-- Convert a big-endian digit list from base `b₁` to base `b₂`, keeping the number of leading zeros. -/
def rebase (b₁ b₂ : Nat) (ds : List Nat) : List Nat :=
  List.replicate (leadingZeros ds) 0 ++ digitsBE b₂ (valBE b₁ ds)

theorem leadingZeros_replicate_append (k : Nat) (l : List Nat) (h : ∀ hne : l ≠ [], l.head hne ≠ 0) :
    leadingZeros (List.replicate k 0 ++ l) = k := by
  induction k with
  | zero =>
    cases l with
    | nil => rfl
    | cons a r =>
      have : a ≠ 0 := h (by simp)
      cases a with
      | zero => exact absurd rfl this
      | succ a => rfl
  | succ k ih => simp only [List.replicate_succ, List.cons_append, leadingZeros, ih]

theorem digitsBE_head (b n : Nat) : ∀ hne : digitsBE b n ≠ [], (digitsBE b n).head hne ≠ 0 := by
  intro hne
  unfold digitsBE at *
  rw [List.head_reverse]
  by_cases hn : n = 0
  · subst hn; simp at hne
  · exact Nat.getLast_digit_ne_zero b hn

theorem valBE_replicate (b k : Nat) (l : List Nat) : valBE b (List.replicate k 0 ++ l) = valBE b l := by
  unfold valBE
  rw [List.reverse_append, List.reverse_replicate, Nat.ofDigits_append_replicate_zero]

theorem valBE_digitsBE (b n : Nat) : valBE b (digitsBE b n) = n := by
  simp [valBE, digitsBE, Nat.ofDigits_digits]

theorem digitsBE_lt {b : Nat} (hb : 1 < b) (n : Nat) : ∀ d ∈ digitsBE b n, d < b := by
  intro d hd
  exact Nat.digits_lt_base hb (by simpa [digitsBE] using hd)

theorem split_leadingZeros (l : List Nat) :
    ∃ r, l = List.replicate (leadingZeros l) 0 ++ r ∧ ∀ hne : r ≠ [], r.head hne ≠ 0 := by
  induction l with
  | nil => exact ⟨[], rfl, by simp⟩
  | cons a t ih =>
    cases a with
    | zero =>
      obtain ⟨r, hr, h0⟩ := ih
      exact ⟨r, by simp only [leadingZeros, List.replicate_succ, List.cons_append]; rw [← hr], h0⟩
    | succ a => exact ⟨(a + 1) :: t, rfl, by simp⟩

theorem digitsBE_valBE {b : Nat} (hb : 1 < b) {l : List Nat} (hl : ∀ d ∈ l, d < b) :
    List.replicate (leadingZeros l) 0 ++ digitsBE b (valBE b l) = l := by
  obtain ⟨r, hr, h0⟩ := split_leadingZeros l
  have : digitsBE b (valBE b l) = r := by
    rw [hr, valBE_replicate]
    unfold digitsBE valBE
    rw [Nat.digits_ofDigits b hb r.reverse]
    · simp
    · intro d hd
      exact hl d (by rw [hr]; simp at hd; simp [hd])
    · intro hne
      rw [List.getLast_reverse]
      exact h0 (by simpa using hne)
  rw [this]
  exact hr.symm

theorem leadingZeros_rebase (b₁ b₂ : Nat) (l : List Nat) :
    leadingZeros (rebase b₁ b₂ l) = leadingZeros l :=
  leadingZeros_replicate_append _ _ (digitsBE_head _ _)

theorem rebase_rebase {b₁ b₂ : Nat} (h₁ : 1 < b₁) {l : List Nat} (hl : ∀ d ∈ l, d < b₁) :
    rebase b₂ b₁ (rebase b₁ b₂ l) = l := by
  show List.replicate (leadingZeros (rebase b₁ b₂ l)) 0 ++ digitsBE b₁ (valBE b₂ (rebase b₁ b₂ l)) = l
  rw [leadingZeros_rebase]
  unfold rebase
  rw [valBE_replicate, valBE_digitsBE]
  exact digitsBE_valBE h₁ hl

theorem rebase_lt {b₁ b₂ : Nat} (h₂ : 1 < b₂) (l : List Nat) : ∀ d ∈ rebase b₁ b₂ l, d < b₂ := by
  intro d hd
  simp only [rebase, List.mem_append] at hd
  rcases hd with hd | hd
  · have := List.eq_of_mem_replicate hd; omega
  · exact digitsBE_lt h₂ _ d hd

/-! ### base58btc -/

/-- The base58btc alphabet. -/
def b58Alphabet : Str := "123456789ABCDEFGHJKLMNPQRSTUVWXYZabcdefghijkmnopqrstuvwxyz".toList

/-- The base58btc character for a digit. -/
def b58Char (d : Nat) : Char := b58Alphabet.getD d '1'

/-- The digit for a base58btc character. -/
def b58Val (c : Char) : Option Nat := b58Alphabet.idxOf? c

theorem b58Val_b58Char : ∀ d < 58, b58Val (b58Char d) = some d := by decide +kernel

theorem b58Alphabet_table : ∀ c ∈ b58Alphabet, ∃ d, d < 58 ∧ b58Val c = some d ∧ b58Char d = c := by
  decide +kernel

theorem b58Val_some {c : Char} {d : Nat} (h : b58Val c = some d) : d < 58 ∧ b58Char d = c := by
  have hm : c ∈ b58Alphabet := by
    by_contra hn
    have : b58Val c = none := by simp [b58Val, List.idxOf?_eq_none_iff, hn]
    rw [this] at h; cases h
  obtain ⟨d', hd, hv, hc⟩ := b58Alphabet_table c hm
  rw [hv] at h
  cases h
  exact ⟨hd, hc⟩

/-- `base_x::encode` with the base58btc alphabet. -/
def base58Encode (bs : Bytes) : Str := (rebase 256 58 (bs.map UInt8.toNat)).map b58Char

/-- `base_x::decode` with the base58btc alphabet; `none` for a foreign character. -/
def base58Decode (s : Str) : Option Bytes :=
  (s.mapM b58Val).map fun ds => (rebase 58 256 ds).map byte

theorem mapM_b58Val_map {ds : List Nat} (h : ∀ d ∈ ds, d < 58) :
    (ds.map b58Char).mapM b58Val = some ds := by
  induction ds with
  | nil => rfl
  | cons d ds ih =>
    rw [List.map_cons, List.mapM_cons, b58Val_b58Char d (h d (by simp)),
      ih (fun x hx => h x (by simp [hx]))]
    rfl

theorem mapM_b58Val_some {s : Str} {ds : List Nat} (h : s.mapM b58Val = some ds) :
    (∀ d ∈ ds, d < 58) ∧ ds.map b58Char = s := by
  induction s generalizing ds with
  | nil => simp at h; subst h; simp
  | cons c s ih =>
    rw [List.mapM_cons] at h
    cases hv : b58Val c with
    | none => rw [hv] at h; cases h
    | some d =>
      cases hr : s.mapM b58Val with
      | none => rw [hv, hr] at h; cases h
      | some ds' =>
        rw [hv, hr] at h
        cases h
        obtain ⟨h1, h2⟩ := b58Val_some hv
        obtain ⟨h3, h4⟩ := ih hr
        refine ⟨?_, by simp [h2, h4]⟩
        intro x hx
        rcases List.mem_cons.mp hx with rfl | hx
        · exact h1
        · exact h3 x hx

theorem map_byte_toNat (bs : Bytes) : (bs.map UInt8.toNat).map byte = bs := by
  induction bs with
  | nil => rfl
  | cons b bs ih => simp only [List.map_cons, byte_of_toNat, ih]

theorem map_toNat_byte {l : List Nat} (h : ∀ d ∈ l, d < 256) : (l.map byte).map UInt8.toNat = l := by
  induction l with
  | nil => rfl
  | cons a l ih =>
    simp only [List.map_cons, byte_toNat_of_lt (h a (by simp)), ih (fun d hd => h d (by simp [hd]))]

theorem map_toNat_lt (bs : Bytes) : ∀ d ∈ bs.map UInt8.toNat, d < 256 := by
  intro d hd
  obtain ⟨b, _, rfl⟩ := List.mem_map.mp hd
  exact UInt8.lt256 b

@[simp] theorem base58Decode_encode (bs : Bytes) : base58Decode (base58Encode bs) = some bs := by
  unfold base58Decode base58Encode
  rw [mapM_b58Val_map (rebase_lt (by omega) _)]
  simp only [Option.map_some]
  rw [rebase_rebase (by omega) (map_toNat_lt bs), map_byte_toNat]

/-- Base58 text is canonical: every text that decodes is the encoding of its bytes. -/
theorem base58Encode_decode {s : Str} {bs : Bytes} (h : base58Decode s = some bs) :
    base58Encode bs = s := by
  unfold base58Decode at h
  obtain ⟨ds, hds, rfl⟩ := Option.map_eq_some_iff.mp h
  obtain ⟨hlt, hmap⟩ := mapM_b58Val_some hds
  unfold base58Encode
  rw [map_toNat_byte (rebase_lt (by omega) _), rebase_rebase (by omega) hlt, hmap]

theorem base58Encode_injective {a b : Bytes} (h : base58Encode a = base58Encode b) : a = b := by
  have := congrArg base58Decode h
  simpa using this

theorem b58Char_mem : ∀ d < 58, b58Char d ∈ b58Alphabet := by decide +kernel

theorem base58Encode_chars (bs : Bytes) : ∀ c ∈ base58Encode bs, c ∈ b58Alphabet := by
  intro c hc
  obtain ⟨d, hd, rfl⟩ := List.mem_map.mp hc
  exact b58Char_mem d (rebase_lt (by omega) _ d hd)

/-! ### multibase -/

/-- `multibase::Base` (crate multibase 0.9). -/
inductive MBase where
  | identity | base2 | base8 | base10 | base16Lower | base16Upper
  | base32Lower | base32Upper | base32PadLower | base32PadUpper
  | base32HexLower | base32HexUpper | base32HexPadLower | base32HexPadUpper | base32Z
  | base36Lower | base36Upper | base58Flickr | base58Btc
  | base64 | base64Pad | base64Url | base64UrlPad
  deriving DecidableEq, Repr

/-- The prefix characters of the crate's bases (crate multibase 0.9, `build_base_enum!`). -/
def mbaseTable : List (Char × MBase) :=
  [('z', .base58Btc), ('f', .base16Lower), ('F', .base16Upper), ('\x00', .identity), ('0', .base2),
   ('7', .base8), ('9', .base10), ('b', .base32Lower), ('B', .base32Upper), ('c', .base32PadLower),
   ('C', .base32PadUpper), ('v', .base32HexLower), ('V', .base32HexUpper), ('t', .base32HexPadLower),
   ('T', .base32HexPadUpper), ('h', .base32Z), ('k', .base36Lower), ('K', .base36Upper),
   ('Z', .base58Flickr), ('m', .base64), ('M', .base64Pad), ('u', .base64Url), ('U', .base64UrlPad)]

/-- `Base::from_code` (crate multibase 0.9). -/
def MBase.ofCode (c : Char) : Option MBase := mbaseTable.lookup c

/-- Value of a lower-case hex digit. -/
def b16Val (c : Char) : Option Nat :=
  let n := c.toNat
  if 48 ≤ n ∧ n ≤ 57 then some (n - 48)
  else if 97 ≤ n ∧ n ≤ 102 then some (n - 87)
  else none

/-- Strict lower-case base16 (`data_encoding::HEXLOWER`). -/
def base16Decode : Str → Option Bytes
  | [] => some []
  | [_] => none
  | a :: b :: r =>
    match b16Val a, b16Val b, base16Decode r with
    | some x, some y, some t => some (byte (x * 16 + y) :: t)
    | _, _, _ => none

/-- `multibase::encode(Base58Btc, bytes)`. -/
def multibaseEncode58 (bs : Bytes) : Str := 'z' :: base58Encode bs

/-- `multibase::decode(text)`: the first character selects the base, the rest is decoded in that base.
`fold` says whether base16 takes both cases; `other` decodes the bases that are not modelled concretely. -/
def multibaseDecode (fold : Bool) (other : MBase → Str → Option Bytes) : Str → Option (MBase × Bytes)
  | [] => none
  | c :: r =>
    match MBase.ofCode c with
    | none => none
    | some .base58Btc => (base58Decode r).map fun b => (.base58Btc, b)
    | some .base16Lower => (if fold then hexDecode r else base16Decode r).map fun b => (.base16Lower, b)
    | some b => (other b r).map fun x => (b, x)

@[simp] theorem multibaseDecode_encode58 (fold) (other) (bs : Bytes) :
    multibaseDecode fold other (multibaseEncode58 bs) = some (.base58Btc, bs) := by
  simp only [multibaseDecode, multibaseEncode58, show MBase.ofCode 'z' = some .base58Btc by decide,
    base58Decode_encode, Option.map_some]

theorem mem_of_lookup {α β : Type} [DecidableEq α] {l : List (α × β)} {a : α} {b : β}
    (h : l.lookup a = some b) : (a, b) ∈ l := by
  induction l with
  | nil => cases h
  | cons p l ih =>
    obtain ⟨x, y⟩ := p
    rw [List.lookup_cons] at h
    split at h
    · rename_i hx
      cases h
      have : a = x := by simpa using hx
      subst this
      simp
    · exact List.mem_cons_of_mem _ (ih h)

theorem mbaseTable_z : ∀ p ∈ mbaseTable, p.2 = .base58Btc → p.1 = 'z' := by decide

theorem ofCode_base58Btc {c : Char} (h : MBase.ofCode c = some .base58Btc) : c = 'z' :=
  mbaseTable_z _ (mem_of_lookup h) rfl

@[simp] theorem ofCode_z : MBase.ofCode 'z' = some .base58Btc := by decide
@[simp] theorem ofCode_f : MBase.ofCode 'f' = some .base16Lower := by decide

/-- The only texts that decode to `(Base58Btc, bytes)` are the encodings. -/
theorem multibaseDecode_base58 {fold} {other} {s : Str} {bs : Bytes}
    (h : multibaseDecode fold other s = some (.base58Btc, bs)) : s = multibaseEncode58 bs := by
  cases s with
  | nil => cases h
  | cons c r =>
    simp only [multibaseDecode] at h
    split at h
    · cases h
    · rename_i hc
      obtain ⟨b, hb, he⟩ := Option.map_eq_some_iff.mp h
      cases he
      rw [ofCode_base58Btc hc, multibaseEncode58, base58Encode_decode hb]
    · obtain ⟨b, hb, he⟩ := Option.map_eq_some_iff.mp h
      cases he
    · rename_i b h1 h2 hc
      obtain ⟨x, hx, he⟩ := Option.map_eq_some_iff.mp h
      cases he
      exact absurd rfl h1

theorem multibaseEncode58_injective {a b : Bytes} (h : multibaseEncode58 a = multibaseEncode58 b) :
    a = b := by
  unfold multibaseEncode58 at h
  exact base58Encode_injective (by simpa using h)

end Verif
