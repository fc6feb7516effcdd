import Verif.Spec.Multibase
import Verif.Concrete.Pkcs8
import Mathlib.Data.List.TakeWhile

/-
The bases of the `multibase` crate (version 0.9, core/Cargo.toml:21), all of them, as its `decode` reads them. Base 10, 36
and 58 are numbers (`base-x` crate); base 2, 8, 16, 32 and 64 are groups of bits (`data-encoding` crate: the last group is
filled with zero bits, and the reader insists on it). The padded ones are read block by block, so that a block in the middle
may be padded too: `data-encoding` reads concatenated texts. Whether letters of either case are taken is a parameter, as it is
not documented. The sources of these crates are not available here; test vectors at the end of the definitions are those of
RFC 4648 and of the multibase specification, quoted from memory.
-/

namespace Verif.Spec
open Verif

/-- The `k` low bits of a number, most significant first. -/
def bitsOf (k n : Nat) : List Bool := (List.range k).reverse.map n.testBit

/-- `t` is the text of `b` in groups of `k` bits: the bits of `b`, and fewer than `k` zeros to fill the last group. -/
def IsGroups (k : Nat) (alphabet : Str) (b : Bytes) (t : Str) : Prop :=
  ∃ (ds : List Nat) (z : Nat), (∀ d ∈ ds, d < 2 ^ k) ∧ t.map some = ds.map (alphabet[·]?) ∧ z < k ∧
    ds.flatMap (bitsOf k) = b.flatMap (fun x => bitsOf 8 x.toNat) ++ List.replicate z false

/-- `t` consists of blocks of `full` characters; each is a text of at least one byte, filled with `=`. -/
inductive IsPadded (k full : Nat) (alphabet : Str) : Bytes → Str → Prop where
  | nil : IsPadded k full alphabet [] []
  | block {b b' : Bytes} {t t' : Str} (hb : b ≠ []) (h : IsGroups k alphabet b t) (hl : t.length ≤ full)
      (hr : IsPadded k full alphabet b' t') :
      IsPadded k full alphabet (b ++ b') (t ++ List.replicate (full - t.length) '=' ++ t')

/-- `t` is the text of `b` as a number: digits of the same big-endian number, with as many leading zero digits as `b` has
leading zero bytes. -/
def IsNumber (alphabet : Str) (b : Bytes) (t : Str) : Prop :=
  ∃ ds : List Nat, (∀ d ∈ ds, d < alphabet.length) ∧ t.map some = ds.map (alphabet[·]?) ∧
    valueOf alphabet.length ds = valueOf 256 (b.map UInt8.toNat) ∧ zerosOf ds = zerosOf (b.map UInt8.toNat)

/-- Prefix characters. -/
def prefixOf : MBase → Char
  | .identity => Char.ofNat 0
  | .base2 => '0'
  | .base8 => '7'
  | .base10 => '9'
  | .base16Lower => 'f'
  | .base16Upper => 'F'
  | .base32Lower => 'b'
  | .base32Upper => 'B'
  | .base32PadLower => 'c'
  | .base32PadUpper => 'C'
  | .base32HexLower => 'v'
  | .base32HexUpper => 'V'
  | .base32HexPadLower => 't'
  | .base32HexPadUpper => 'T'
  | .base32Z => 'h'
  | .base36Lower => 'k'
  | .base36Upper => 'K'
  | .base58Flickr => 'Z'
  | .base58Btc => 'z'
  | .base64 => 'm'
  | .base64Pad => 'M'
  | .base64Url => 'u'
  | .base64UrlPad => 'U'

/-- `t` with its letters in lower case, if `fold`. -/
def lowered (fold : Bool) (t : Str) : Str := if fold then t.map Char.toLower else t

/-- `t` with its letters in upper case, if `fold`. -/
def raised (fold : Bool) (t : Str) : Str := if fold then t.map Char.toUpper else t

/-- `t` is a text of `b` in a base, without the prefix; letters of either case where `fold` says so. -/
def IsText (fold : MBase → Bool) (base : MBase) (b : Bytes) (t : Str) : Prop :=
  match base with
  | .identity => utf8 t = b
  | .base2 => IsGroups 1 "01".toList b t
  | .base8 => IsGroups 3 "01234567".toList b t
  | .base10 => IsNumber "0123456789".toList b t
  | .base16Lower => IsGroups 4 "0123456789abcdef".toList b (lowered (fold base) t)
  | .base16Upper => IsGroups 4 "0123456789ABCDEF".toList b (raised (fold base) t)
  | .base32Lower => IsGroups 5 "abcdefghijklmnopqrstuvwxyz234567".toList b (lowered (fold base) t)
  | .base32Upper => IsGroups 5 "ABCDEFGHIJKLMNOPQRSTUVWXYZ234567".toList b (raised (fold base) t)
  | .base32PadLower => IsPadded 5 8 "abcdefghijklmnopqrstuvwxyz234567".toList b (lowered (fold base) t)
  | .base32PadUpper => IsPadded 5 8 "ABCDEFGHIJKLMNOPQRSTUVWXYZ234567".toList b (raised (fold base) t)
  | .base32HexLower => IsGroups 5 "0123456789abcdefghijklmnopqrstuv".toList b (lowered (fold base) t)
  | .base32HexUpper => IsGroups 5 "0123456789ABCDEFGHIJKLMNOPQRSTUV".toList b (raised (fold base) t)
  | .base32HexPadLower => IsPadded 5 8 "0123456789abcdefghijklmnopqrstuv".toList b (lowered (fold base) t)
  | .base32HexPadUpper => IsPadded 5 8 "0123456789ABCDEFGHIJKLMNOPQRSTUV".toList b (raised (fold base) t)
  | .base32Z => IsGroups 5 "ybndrfg8ejkmcpqxot1uwisza345h769".toList b (lowered (fold base) t)
  | .base36Lower => IsNumber "0123456789abcdefghijklmnopqrstuvwxyz".toList b (lowered (fold base) t)
  | .base36Upper => IsNumber "0123456789ABCDEFGHIJKLMNOPQRSTUVWXYZ".toList b (raised (fold base) t)
  | .base58Flickr => IsNumber "123456789abcdefghijkmnopqrstuvwxyzABCDEFGHJKLMNPQRSTUVWXYZ".toList b t
  | .base58Btc => IsNumber "123456789ABCDEFGHJKLMNPQRSTUVWXYZabcdefghijkmnopqrstuvwxyz".toList b t
  | .base64 => IsGroups 6 "ABCDEFGHIJKLMNOPQRSTUVWXYZabcdefghijklmnopqrstuvwxyz0123456789+/".toList b t
  | .base64Pad => IsPadded 6 4 "ABCDEFGHIJKLMNOPQRSTUVWXYZabcdefghijklmnopqrstuvwxyz0123456789+/".toList b t
  | .base64Url => IsGroups 6 "ABCDEFGHIJKLMNOPQRSTUVWXYZabcdefghijklmnopqrstuvwxyz0123456789-_".toList b t
  | .base64UrlPad => IsPadded 6 4 "ABCDEFGHIJKLMNOPQRSTUVWXYZabcdefghijklmnopqrstuvwxyz0123456789-_".toList b t

end Verif.Spec

namespace Verif.Bases
open Spec

/-! ### The programs -/

/-- `n` modulo `base ^ m`, in `m` digits. -/
def fixed (base : Nat) : Nat → Nat → List Nat
  | 0, _ => []
  | m + 1, n => n / base ^ m % base :: fixed base m n

/-- The digits of a text. -/
def digits (alphabet : Str) (t : Str) : Option (List Nat) := t.mapM alphabet.idxOf?

/-- `base_x::decode`. -/
def numberDecode (alphabet : Str) (t : Str) : Option Bytes :=
  (digits alphabet t).map fun ds => (rebase alphabet.length 256 ds).map byte

/-- `data_encoding::Encoding::decode` without padding: no more groups than needed, the bits left over are zeros. -/
def groupsDecode (k : Nat) (alphabet : Str) (t : Str) : Option Bytes :=
  match digits alphabet t with
  | none => none
  | some ds =>
    let rest := k * ds.length % 8
    let n := valBE (2 ^ k) ds
    if rest < k ∧ n % 2 ^ rest = 0 then some ((fixed 256 (k * ds.length / 8) (n / 2 ^ rest)).map byte) else none

/-- `data_encoding::Encoding::decode` with padding (`decode_pad_mut`, `check_pad`): blocks of `full` characters, each read by
itself after its final `=` are dropped. -/
def paddedDecode (k full : Nat) (alphabet : Str) : Nat → Str → Option Bytes
  | _, [] => some []
  | 0, _ => none
  | n + 1, t =>
    if t.length < full then none
    else
      let g := ((t.take full).reverse.dropWhile (· == '=')).reverse
      if g = [] then none
      else
        match groupsDecode k alphabet g, paddedDecode k full alphabet n (t.drop full) with
        | some b, some b' => some (b ++ b')
        | _, _ => none

/-- `to_ascii_lowercase` of a character. -/
def lowerAscii (c : Char) : Char := if 65 ≤ c.toNat ∧ c.toNat ≤ 90 then Char.ofNat (c.toNat + 32) else c

/-- `to_ascii_uppercase` of a character. -/
def upperAscii (c : Char) : Char := if 97 ≤ c.toNat ∧ c.toNat ≤ 122 then Char.ofNat (c.toNat - 32) else c

/-- The decoder of a base (crate multibase 0.9, `impl_bases.rs` and `encoding.rs`). -/
def decode (fold : MBase → Bool) (base : MBase) (t : Str) : Option Bytes :=
  let lower := if fold base then t.map lowerAscii else t
  let upper := if fold base then t.map upperAscii else t
  match base with
  | .identity => some (utf8Encode t)
  | .base2 => groupsDecode 1 "01".toList t
  | .base8 => groupsDecode 3 "01234567".toList t
  | .base10 => numberDecode "0123456789".toList t
  | .base16Lower => groupsDecode 4 "0123456789abcdef".toList lower
  | .base16Upper => groupsDecode 4 "0123456789ABCDEF".toList upper
  | .base32Lower => groupsDecode 5 "abcdefghijklmnopqrstuvwxyz234567".toList lower
  | .base32Upper => groupsDecode 5 "ABCDEFGHIJKLMNOPQRSTUVWXYZ234567".toList upper
  | .base32PadLower => paddedDecode 5 8 "abcdefghijklmnopqrstuvwxyz234567".toList lower.length lower
  | .base32PadUpper => paddedDecode 5 8 "ABCDEFGHIJKLMNOPQRSTUVWXYZ234567".toList upper.length upper
  | .base32HexLower => groupsDecode 5 "0123456789abcdefghijklmnopqrstuv".toList lower
  | .base32HexUpper => groupsDecode 5 "0123456789ABCDEFGHIJKLMNOPQRSTUV".toList upper
  | .base32HexPadLower => paddedDecode 5 8 "0123456789abcdefghijklmnopqrstuv".toList lower.length lower
  | .base32HexPadUpper => paddedDecode 5 8 "0123456789ABCDEFGHIJKLMNOPQRSTUV".toList upper.length upper
  | .base32Z => groupsDecode 5 "ybndrfg8ejkmcpqxot1uwisza345h769".toList lower
  | .base36Lower => numberDecode "0123456789abcdefghijklmnopqrstuvwxyz".toList lower
  | .base36Upper => numberDecode "0123456789ABCDEFGHIJKLMNOPQRSTUVWXYZ".toList upper
  | .base58Flickr => numberDecode "123456789abcdefghijkmnopqrstuvwxyzABCDEFGHJKLMNPQRSTUVWXYZ".toList t
  | .base58Btc => numberDecode "123456789ABCDEFGHJKLMNPQRSTUVWXYZabcdefghijkmnopqrstuvwxyz".toList t
  | .base64 => groupsDecode 6 "ABCDEFGHIJKLMNOPQRSTUVWXYZabcdefghijklmnopqrstuvwxyz0123456789+/".toList t
  | .base64Pad => paddedDecode 6 4 "ABCDEFGHIJKLMNOPQRSTUVWXYZabcdefghijklmnopqrstuvwxyz0123456789+/".toList t.length t
  | .base64Url => groupsDecode 6 "ABCDEFGHIJKLMNOPQRSTUVWXYZabcdefghijklmnopqrstuvwxyz0123456789-_".toList t
  | .base64UrlPad => paddedDecode 6 4 "ABCDEFGHIJKLMNOPQRSTUVWXYZabcdefghijklmnopqrstuvwxyz0123456789-_".toList t.length t

/-- "yes mani !" in every base, from the test vectors of the multibase specification. -/
example : ∀ p ∈ [(MBase.identity, "yes mani !"),
    (.base2, "01111001011001010111001100100000011011010110000101101110011010010010000000100001"),
    (.base8, "362625631006654133464440102"), (.base10, "573277761329450583662625"),
    (.base16Lower, "796573206d616e692021"), (.base16Upper, "796573206D616E692021"),
    (.base32Lower, "pfsxgidnmfxgsibb"), (.base32Upper, "PFSXGIDNMFXGSIBB"),
    (.base32PadLower, "pfsxgidnmfxgsibb"), (.base32PadUpper, "PFSXGIDNMFXGSIBB"),
    (.base32HexLower, "f5in683dc5n6i811"), (.base32HexUpper, "F5IN683DC5N6I811"),
    (.base32HexPadLower, "f5in683dc5n6i811"), (.base32HexPadUpper, "F5IN683DC5N6I811"),
    (.base32Z, "xf1zgedpcfzg1ebb"), (.base36Lower, "2lcpzo5yikidynfl"), (.base36Upper, "2LCPZO5YIKIDYNFL"),
    (.base58Flickr, "7Pznk19XTTzBtx"), (.base58Btc, "7paNL19xttacUY"),
    (.base64, "eWVzIG1hbmkgIQ"), (.base64Pad, "eWVzIG1hbmkgIQ=="),
    (.base64Url, "eWVzIG1hbmkgIQ"), (.base64UrlPad, "eWVzIG1hbmkgIQ==")],
    decode (fun _ => false) p.1 p.2.toList = some "yes mani !".toUTF8.toList := by decide +kernel

/-- RFC 4648, section 10: the texts of "f", "fo", … "foobar". -/
example : decode (fun _ => false) .base64Pad "Zg==".toList = some "f".toUTF8.toList ∧
    decode (fun _ => false) .base64Pad "Zm8=".toList = some "fo".toUTF8.toList ∧
    decode (fun _ => false) .base64Pad "Zm9vYmFy".toList = some "foobar".toUTF8.toList ∧
    decode (fun _ => false) .base32PadUpper "MZXQ====".toList = some "fo".toUTF8.toList ∧
    decode (fun _ => false) .base32PadUpper "MZXW6YTB".toList = some "fooba".toUTF8.toList ∧
    decode (fun _ => false) .base32PadUpper "MZXW6YTBOI======".toList = some "foobar".toUTF8.toList ∧
    decode (fun _ => false) .base32HexPadUpper "CPNMUOJ1E8======".toList = some "foobar".toUTF8.toList := by decide +kernel

/-- Bits left over must be zeros, no group may be superfluous, padding must be complete; blocks may be padded one by one. -/
example : decode (fun _ => false) .base64 "Zh".toList = none ∧ decode (fun _ => false) .base64 "Z".toList = none ∧
    decode (fun _ => false) .base64Pad "Zg=".toList = none ∧ decode (fun _ => false) .base64Pad "====".toList = none ∧
    decode (fun _ => false) .base64Pad "Zg==bw==".toList = some "fo".toUTF8.toList := by decide +kernel

/-- "hello world" with letters of either case, from the multibase specification. -/
example : decode (fun _ => true) .base32HexLower "d1imor3f41RMUSJCCG".toList = some "hello world".toUTF8.toList ∧
    decode (fun _ => true) .base36Upper "fUVrSIVVnFRbJWAJo".toList = some "hello world".toUTF8.toList ∧
    decode (fun _ => false) .base32HexLower "d1imor3f41RMUSJCCG".toList = none := by decide +kernel

/-! ### Bits and numbers -/

/-- The number written by bits. -/
def ofBits : List Bool → Nat
  | [] => 0
  | a :: l => a.toNat * 2 ^ l.length + ofBits l

theorem ofBits_append (x y : List Bool) : ofBits (x ++ y) = ofBits x * 2 ^ y.length + ofBits y := by
  induction x with
  | nil => simp [ofBits]
  | cons a x ih =>
    simp only [List.cons_append, ofBits, ih, List.length_append, pow_add]
    ring

theorem ofBits_lt (x : List Bool) : ofBits x < 2 ^ x.length := by
  induction x with
  | nil => simp [ofBits]
  | cons a x ih =>
    simp only [ofBits, List.length_cons, pow_succ]
    have : a.toNat ≤ 1 := a.toNat_le
    nlinarith

theorem ofBits_inj {x y : List Bool} (hl : x.length = y.length) (h : ofBits x = ofBits y) : x = y := by
  induction x generalizing y with
  | nil => cases y with
    | nil => rfl
    | cons => simp at hl
  | cons a x ih =>
    cases y with
    | nil => simp at hl
    | cons b y =>
      simp only [List.length_cons, Nat.add_right_cancel_iff] at hl
      simp only [ofBits, hl] at h
      have h1 := ofBits_lt x
      have h2 := ofBits_lt y
      rw [hl] at h1
      have hp : 0 < 2 ^ y.length := by positivity
      have e : a = b := by
        cases a <;> cases b <;> simp at h ⊢ <;> omega
      subst e
      rw [ih hl (by omega)]

theorem ofBits_zeros (z : Nat) : ofBits (List.replicate z false) = 0 := by
  induction z with
  | zero => rfl
  | succ z ih => simp [List.replicate_succ, ofBits, ih]

@[simp] theorem bitsOf_length (k n : Nat) : (bitsOf k n).length = k := by simp [bitsOf]

theorem bitsOf_succ (k n : Nat) : bitsOf (k + 1) n = n.testBit k :: bitsOf k n := by
  simp [bitsOf, List.range_succ]

theorem ofBits_bitsOf (k n : Nat) : ofBits (bitsOf k n) = n % 2 ^ k := by
  induction k with
  | zero => simp [bitsOf, ofBits, Nat.mod_one]
  | succ k ih =>
    rw [bitsOf_succ, ofBits, ih, bitsOf_length, pow_succ, Nat.mod_mul, Nat.testBit_eq_decide_div_mod_eq]
    rcases Nat.mod_two_eq_zero_or_one (n / 2 ^ k) with h | h <;> simp [h]
    ring

theorem flatMap_bits_length (k : Nat) (ds : List Nat) : (ds.flatMap (bitsOf k)).length = k * ds.length := by
  induction ds with
  | nil => rfl
  | cons d ds ih =>
    rw [List.flatMap_cons, List.length_append, ih, bitsOf_length, List.length_cons]
    ring

theorem ofBits_flatMap {k : Nat} {ds : List Nat} (h : ∀ d ∈ ds, d < 2 ^ k) :
    ofBits (ds.flatMap (bitsOf k)) = valBE (2 ^ k) ds := by
  induction ds with
  | nil => rfl
  | cons d ds ih =>
    rw [List.flatMap_cons, ofBits_append, flatMap_bits_length, ih fun x hx => h x (List.mem_cons_of_mem _ hx), ofBits_bitsOf,
      Nat.mod_eq_of_lt (h d List.mem_cons_self), Pkcs8.valBE_cons, pow_mul]

/-- The description by bits, by numbers. -/
theorem bits_iff {k : Nat} {ds : List Nat} (h : ∀ d ∈ ds, d < 2 ^ k) (b : Bytes) (z : Nat) :
    ds.flatMap (bitsOf k) = b.flatMap (fun x => bitsOf 8 x.toNat) ++ List.replicate z false ↔
      k * ds.length = 8 * b.length + z ∧ valBE (2 ^ k) ds = valBE 256 (b.map UInt8.toNat) * 2 ^ z := by
  have e : b.flatMap (fun x => bitsOf 8 x.toNat) = (b.map UInt8.toNat).flatMap (bitsOf 8) := by
    rw [List.flatMap_map]
  have hb : ∀ d ∈ b.map UInt8.toNat, d < 2 ^ 8 := map_toNat_lt b
  have l1 := flatMap_bits_length k ds
  have l2 := flatMap_bits_length 8 (b.map UInt8.toNat)
  have v1 := ofBits_flatMap h
  have v2 := ofBits_flatMap hb
  rw [List.length_map] at l2
  have v3 : ofBits ((b.map UInt8.toNat).flatMap (bitsOf 8) ++ List.replicate z false) =
      valBE 256 (b.map UInt8.toNat) * 2 ^ z := by
    rw [ofBits_append, ofBits_zeros, v2, List.length_replicate]; rfl
  rw [e]
  constructor
  · intro h
    refine ⟨?_, by rw [← v1, ← v3, h]⟩
    rw [← l1, h, List.length_append, l2, List.length_replicate]
  · rintro ⟨h1, h2⟩
    apply ofBits_inj
    · rw [l1, h1, List.length_append, l2, List.length_replicate]
    · rw [v1, v3, h2]

/-! ### Digits -/

@[simp] theorem fixed_length (base m n : Nat) : (fixed base m n).length = m := by
  induction m with
  | zero => rfl
  | succ m ih => simp [fixed, ih]

theorem fixed_lt {base : Nat} (hb : 0 < base) (m n : Nat) : ∀ d ∈ fixed base m n, d < base := by
  induction m with
  | zero => simp [fixed]
  | succ m ih =>
    intro d hd
    rcases List.mem_cons.mp hd with rfl | hd
    · exact Nat.mod_lt _ hb
    · exact ih d hd

theorem valBE_fixed (base m n : Nat) : valBE base (fixed base m n) = n % base ^ m := by
  induction m with
  | zero => simp [fixed, valBE, Nat.mod_one]
  | succ m ih =>
    rw [fixed, Pkcs8.valBE_cons, ih, fixed_length, pow_succ, Nat.mod_mul]
    ring

theorem valBE_lt {base : Nat} {ds : List Nat} (h : ∀ d ∈ ds, d < base) : valBE base ds < base ^ ds.length := by
  induction ds with
  | nil => simp [valBE]
  | cons d ds ih =>
    have h1 := h d List.mem_cons_self
    have h2 := ih fun x hx => h x (List.mem_cons_of_mem _ hx)
    rw [Pkcs8.valBE_cons, List.length_cons, pow_succ]
    nlinarith

theorem idxOf_iff {a : Str} (hn : a.Nodup) (c : Char) (d : Nat) : a.idxOf? c = some d ↔ a[d]? = some c := by
  constructor
  · intro h
    induction a generalizing d with
    | nil => simp at h
    | cons x a ih =>
      rw [List.idxOf?_cons] at h
      split at h
      · rename_i hx
        cases h
        simpa using hx
      · obtain ⟨e, he, rfl⟩ := Option.map_eq_some_iff.mp h
        simpa using ih (List.nodup_cons.mp hn).2 e he
  · intro h
    induction a generalizing d with
    | nil => simp at h
    | cons x a ih =>
      rw [List.idxOf?_cons]
      cases d with
      | zero =>
        simp only [List.getElem?_cons_zero, Option.some.injEq] at h
        subst h
        simp
      | succ d =>
        simp only [List.getElem?_cons_succ] at h
        have hm := List.mem_of_getElem? h
        have hne : (x == c) = false := by
          simp only [beq_eq_false_iff_ne]
          rintro rfl
          exact (List.nodup_cons.mp hn).1 hm
        simp [hne, ih (List.nodup_cons.mp hn).2 d h]

theorem digits_iff {a : Str} (hn : a.Nodup) (t : Str) (ds : List Nat) :
    digits a t = some ds ↔ t.map some = ds.map (a[·]?) := by
  unfold digits
  induction t generalizing ds with
  | nil => cases ds <;> simp
  | cons c t ih =>
    rw [List.mapM_cons]
    cases ds with
    | nil =>
      cases h : a.idxOf? c with
      | none => simp
      | some d => cases h' : t.mapM a.idxOf? <;> simp
    | cons d ds =>
      simp only [List.map_cons, List.cons.injEq]
      rw [← ih, eq_comm (a := some c), ← idxOf_iff hn]
      cases h : a.idxOf? c with
      | none => simp
      | some d' => cases h' : t.mapM a.idxOf? <;> simp

theorem digits_lt {a : Str} {t : Str} {ds : List Nat} (h : t.map some = ds.map (a[·]?)) : ∀ d ∈ ds, d < a.length := by
  intro d hd
  have : a[d]? ∈ t.map some := by rw [h]; exact List.mem_map_of_mem hd
  obtain ⟨c, _, hc⟩ := List.mem_map.mp this
  exact (List.getElem?_eq_some_iff.mp hc.symm).1

/-- The text of digits. -/
def textOf (a : Str) (ds : List Nat) : Str := ds.map fun d => a.getD d ' '

theorem textOf_spec {a : Str} {ds : List Nat} (h : ∀ d ∈ ds, d < a.length) : (textOf a ds).map some = ds.map (a[·]?) := by
  unfold textOf
  rw [List.map_map]
  apply List.map_congr_left
  intro d hd
  have := h d hd
  simp [this]

theorem map_some_inj {t t' : Str} (h : t.map some = t'.map some) : t = t' :=
  List.map_injective_iff.mpr (Option.some_injective _) h

/-! ### Numbers -/

theorem number_iff {a : Str} (hn : a.Nodup) (b : Bytes) (t : Str) :
    numberDecode a t = some b ↔ IsNumber a b t := by
  unfold numberDecode IsNumber
  constructor
  · intro h
    obtain ⟨ds, h1, rfl⟩ := Option.map_eq_some_iff.mp h
    rw [digits_iff hn] at h1
    refine ⟨ds, digits_lt h1, h1, ?_, ?_⟩
    · rw [map_toNat_byte (rebase_lt (by omega) _), valueOf_eq, valueOf_eq, valBE_rebase]
    · rw [map_toNat_byte (rebase_lt (by omega) _), zerosOf_eq, zerosOf_eq, leadingZeros_rebase]
  · rintro ⟨ds, h1, h2, h3, h4⟩
    rw [(digits_iff hn _ _).mpr h2, Option.map_some]
    rw [valueOf_eq, valueOf_eq] at h3
    rw [zerosOf_eq, zerosOf_eq] at h4
    have : rebase a.length 256 ds = b.map UInt8.toNat :=
      digits_unique (b := 256) (by omega) (rebase_lt (by omega) _) (map_toNat_lt b) (by rw [valBE_rebase, h3])
        (by rw [leadingZeros_rebase, h4])
    rw [this, map_byte_toNat]

/-- The text of a byte string in a base. -/
def numberText (a : Str) (b : Bytes) : Str := textOf a (rebase 256 a.length (b.map UInt8.toNat))

theorem isNumber_iff {a : Str} (ha : 1 < a.length) (b : Bytes) (t : Str) : IsNumber a b t ↔ t = numberText a b := by
  have hs : IsNumber a b (numberText a b) :=
    ⟨_, rebase_lt ha _, textOf_spec (rebase_lt ha _), by rw [valueOf_eq, valueOf_eq, valBE_rebase],
      by rw [zerosOf_eq, zerosOf_eq, leadingZeros_rebase]⟩
  constructor
  · rintro ⟨ds, h1, h2, h3, h4⟩
    obtain ⟨es, g1, g2, g3, g4⟩ := hs
    have : ds = es := digits_unique ha h1 g1 (by rw [← valueOf_eq, ← valueOf_eq, h3, g3]) (by rw [← zerosOf_eq, ← zerosOf_eq, h4, g4])
    subst this
    exact map_some_inj (h2.trans g2.symm)
  · rintro rfl
    exact hs

/-! ### Groups of bits -/

theorem isGroups_num {k : Nat} {a : Str} {b : Bytes} {t : Str} :
    IsGroups k a b t ↔ ∃ ds z, (∀ d ∈ ds, d < 2 ^ k) ∧ t.map some = ds.map (a[·]?) ∧ z < k ∧
      k * ds.length = 8 * b.length + z ∧ valBE (2 ^ k) ds = valBE 256 (b.map UInt8.toNat) * 2 ^ z := by
  unfold IsGroups
  constructor
  · rintro ⟨ds, z, h1, h2, h3, h4⟩
    exact ⟨ds, z, h1, h2, h3, (bits_iff h1 b z).mp h4⟩
  · rintro ⟨ds, z, h1, h2, h3, h4⟩
    exact ⟨ds, z, h1, h2, h3, (bits_iff h1 b z).mpr h4⟩

theorem groups_iff {k : Nat} {a : Str} (hn : a.Nodup) (ha : a.length = 2 ^ k) (hk : k ≤ 8) (b : Bytes) (t : Str) :
    groupsDecode k a t = some b ↔ IsGroups k a b t := by
  rw [isGroups_num]
  unfold groupsDecode
  constructor
  · intro h
    cases hd : digits a t with
    | none => rw [hd] at h; cases h
    | some ds =>
      rw [hd] at h
      simp only at h
      split at h
      · rename_i hc
        cases h
        have h1 := (digits_iff hn _ _).mp hd
        have h2 := digits_lt h1
        rw [ha] at h2
        have hv := valBE_lt h2
        refine ⟨ds, _, h2, h1, hc.1, ?_, ?_⟩
        · rw [List.length_map, fixed_length]; omega
        · rw [map_toNat_byte (fixed_lt (by omega) _ _), valBE_fixed, Nat.mod_eq_of_lt, Nat.div_mul_cancel (Nat.dvd_of_mod_eq_zero hc.2)]
          rw [Nat.div_lt_iff_lt_mul (by positivity)]
          refine lt_of_lt_of_eq hv ?_
          rw [show (256 : Nat) = 2 ^ 8 by rfl, ← pow_mul, ← pow_mul, ← pow_add]
          congr 1
          omega
      · cases h
  · rintro ⟨ds, z, h1, h2, h3, h4, h5⟩
    rw [(digits_iff hn _ _).mpr h2]
    have hz : k * ds.length % 8 = z := by omega
    have hl : k * ds.length / 8 = b.length := by omega
    simp only [hz, hl, h5]
    rw [if_pos ⟨h3, by simp⟩, Nat.mul_div_cancel _ (by positivity)]
    congr 1
    have : fixed 256 b.length (valBE 256 (b.map UInt8.toNat)) = b.map UInt8.toNat := by
      apply Pkcs8.valBE_injective (n := 256) (by omega) (by simp) (fixed_lt (by omega) _ _) (map_toNat_lt b)
      rw [valBE_fixed, Nat.mod_eq_of_lt]
      simpa using valBE_lt (map_toNat_lt b)
    rw [this, map_byte_toNat]

/-- Zero bits that fill the last group. -/
def fill (k n : Nat) : Nat := (k - 8 * n % k) % k

theorem fill_lt {k : Nat} (hk : 0 < k) (n : Nat) : fill k n < k := Nat.mod_lt _ hk

theorem fill_dvd {k : Nat} (hk : 0 < k) (n : Nat) : k ∣ 8 * n + fill k n := by
  unfold fill
  have h1 := Nat.mod_lt (8 * n) hk
  have h2 := Nat.div_add_mod (8 * n) k
  by_cases h : 8 * n % k = 0
  · rw [h, Nat.sub_zero, Nat.mod_self, Nat.add_zero]
    exact Nat.dvd_of_mod_eq_zero h
  · rw [Nat.mod_eq_of_lt (show k - 8 * n % k < k by omega)]
    refine ⟨8 * n / k + 1, ?_⟩
    rw [Nat.mul_add]
    omega

/-- The number of zero bits is determined by the length. -/
theorem fill_unique {k n z m : Nat} (hz : z < k) (h : k * m = 8 * n + z) : z = fill k n := by
  have hk : 0 < k := by omega
  have h1 := fill_lt hk n
  obtain ⟨c, hc⟩ := fill_dvd hk n
  rcases lt_trichotomy z (fill k n) with g | g | g
  · exfalso
    have : k * m < k * c := by omega
    have := Nat.lt_of_mul_lt_mul_left this
    have : k * (m + 1) ≤ k * c := Nat.mul_le_mul_left _ this
    rw [Nat.mul_add] at this
    omega
  · exact g
  · exfalso
    have : k * c < k * m := by omega
    have := Nat.lt_of_mul_lt_mul_left this
    have : k * (c + 1) ≤ k * m := Nat.mul_le_mul_left _ this
    rw [Nat.mul_add] at this
    omega

/-- The text of a byte string in groups of `k` bits. -/
def groupsText (k : Nat) (a : Str) (b : Bytes) : Str :=
  textOf a (fixed (2 ^ k) ((8 * b.length + fill k b.length) / k) (valBE 256 (b.map UInt8.toNat) * 2 ^ fill k b.length))

theorem isGroups_iff {k : Nat} {a : Str} (ha : a.length = 2 ^ k) (hk : 0 < k) (b : Bytes) (t : Str) :
    IsGroups k a b t ↔ t = groupsText k a b := by
  have hlt := fixed_lt (base := 2 ^ k) (by positivity) ((8 * b.length + fill k b.length) / k)
    (valBE 256 (b.map UInt8.toNat) * 2 ^ fill k b.length)
  have hdvd := Nat.mul_div_cancel' (fill_dvd hk b.length)
  have hs : IsGroups k a b (groupsText k a b) := by
    rw [isGroups_num]
    refine ⟨_, fill k b.length, hlt, textOf_spec (by rw [ha]; exact hlt), fill_lt hk _, ?_, ?_⟩
    · rw [fixed_length, hdvd]
    · rw [valBE_fixed, Nat.mod_eq_of_lt]
      have := valBE_lt (map_toNat_lt b)
      rw [List.length_map] at this
      calc _ < 256 ^ b.length * 2 ^ fill k b.length := Nat.mul_lt_mul_of_pos_right this (by positivity)
        _ = _ := by
          rw [show (256 : Nat) = 2 ^ 8 by rfl, ← pow_mul, ← pow_mul, ← pow_add, hdvd]
  constructor
  · intro h
    rw [isGroups_num] at h hs
    obtain ⟨ds, z, h1, h2, h3, h4, h5⟩ := h
    obtain ⟨es, y, g1, g2, g3, g4, g5⟩ := hs
    have hz := fill_unique h3 h4
    have hy := fill_unique g3 g4
    have hzy : z = y := hz.trans hy.symm
    subst hzy
    have hlen : ds.length = es.length := Nat.eq_of_mul_eq_mul_left hk (h4.trans g4.symm)
    have : ds = es := Pkcs8.valBE_injective (Nat.one_lt_two_pow (by omega)) hlen h1 g1 (h5.trans g5.symm)
    subst this
    exact map_some_inj (h2.trans g2.symm)
  · rintro rfl
    exact hs

theorem groupsText_length {k : Nat} {a : Str} (hk : 0 < k) (b : Bytes) :
    k * (groupsText k a b).length = 8 * b.length + fill k b.length := by
  unfold groupsText textOf
  rw [List.length_map, fixed_length, Nat.mul_div_cancel' (fill_dvd hk _)]

theorem groupsText_mem {k : Nat} {a : Str} (ha : a.length = 2 ^ k) (b : Bytes) : ∀ c ∈ groupsText k a b, c ∈ a := by
  intro c hc
  obtain ⟨d, hd, rfl⟩ := List.mem_map.mp hc
  have := fixed_lt (base := 2 ^ k) (by positivity) _ _ d hd
  have h : d < a.length := by omega
  simp [h]

/-- Different bytes have different texts. -/
theorem groupsText_inj {k : Nat} {a : Str} (hn : a.Nodup) (ha : a.length = 2 ^ k) (h0 : 0 < k) (hk : k ≤ 8) {b b' : Bytes}
    (h : groupsText k a b = groupsText k a b') : b = b' := by
  have h1 := (groups_iff hn ha hk b _).mpr ((isGroups_iff ha h0 b _).mpr rfl)
  have h2 := (groups_iff hn ha hk b' _).mpr ((isGroups_iff ha h0 b' _).mpr rfl)
  rw [h, h2] at h1
  exact (Option.some.inj h1).symm

/-! ### Padding -/

theorem strip_pad {a : Str} (hp : '=' ∉ a) {g : Str} (hg : ∀ c ∈ g, c ∈ a) (n : Nat) :
    ((g ++ List.replicate n '=').reverse.dropWhile (· == '=')).reverse = g := by
  rw [List.reverse_append, List.reverse_replicate]
  have : (List.replicate n '=' ++ g.reverse).dropWhile (· == '=') = g.reverse := by
    induction n with
    | zero =>
      rw [List.replicate_zero, List.nil_append]
      cases hr : g.reverse with
      | nil => rfl
      | cons c r =>
        have : c ∈ g := by rw [← List.mem_reverse, hr]; simp
        have hc : c ≠ '=' := fun e => hp (e ▸ hg c this)
        simp [hc]
    | succ n ih => simpa [List.replicate_succ] using ih
  rw [this, List.reverse_reverse]

theorem dropWhile_split (l : Str) : ∃ n, l = (l.reverse.dropWhile (· == '=')).reverse ++ List.replicate n '=' := by
  have h := List.takeWhile_append_dropWhile (p := (· == '=')) (l := l.reverse)
  have h1 : l.reverse.takeWhile (· == '=') = List.replicate (l.reverse.takeWhile (· == '=')).length '=' := by
    rw [List.eq_replicate_iff]
    refine ⟨rfl, fun c hc => ?_⟩
    simpa using List.mem_takeWhile_imp hc
  refine ⟨(l.reverse.takeWhile (· == '=')).length, ?_⟩
  have h2 := congrArg List.reverse h
  rw [List.reverse_append, List.reverse_reverse] at h2
  conv_lhs => rw [← h2, h1, List.reverse_replicate]

theorem groups_ne_nil {k : Nat} {a : Str} {b : Bytes} {t : Str} (h : IsGroups k a b t) : b = [] ↔ t = [] := by
  rw [isGroups_num] at h
  obtain ⟨ds, z, h1, h2, h3, h4, h5⟩ := h
  have hl : t.length = ds.length := by simpa using congrArg List.length h2
  constructor
  · rintro rfl
    have : ds.length = 0 := by
      by_contra hne
      have : k * 1 ≤ k * ds.length := Nat.mul_le_mul_left _ (by omega)
      simp at h4
      omega
    exact List.eq_nil_of_length_eq_zero (by omega)
  · rintro rfl
    simp at hl
    have : ds.length = 0 := by omega
    rw [this] at h4
    exact List.eq_nil_of_length_eq_zero (by omega)

theorem padded_iff {k full : Nat} {a : Str} (hn : a.Nodup) (ha : a.length = 2 ^ k) (h0 : 0 < k) (hk : k ≤ 8) (hf : 0 < full)
    (hp : '=' ∉ a) (n : Nat) (t : Str) (ht : t.length ≤ n) (b : Bytes) :
    paddedDecode k full a n t = some b ↔ IsPadded k full a b t := by
  induction n generalizing t b with
  | zero =>
    have : t = [] := List.eq_nil_of_length_eq_zero (by omega)
    subst this
    constructor
    · intro h
      cases h
      exact .nil
    · intro h
      generalize hr : ([] : Str) = r at h
      cases h with
      | nil => rfl
      | block hb h hl hr' =>
        have := congrArg List.length hr
        simp at this
        omega
  | succ n ih =>
    cases t with
    | nil =>
      constructor
      · intro h
        cases h
        exact .nil
      · intro h
        generalize hr : ([] : Str) = r at h
        cases h with
        | nil => rfl
        | block hb h hl hr' =>
          have := congrArg List.length hr
          simp at this
          omega
    | cons c r =>
      generalize hs : c :: r = s at *
      have hpos : 0 < s.length := by rw [← hs]; simp
      have e : paddedDecode k full a (n + 1) s =
          if s.length < full then none
          else
            if ((s.take full).reverse.dropWhile (· == '=')).reverse = [] then none
            else
              match groupsDecode k a ((s.take full).reverse.dropWhile (· == '=')).reverse, paddedDecode k full a n (s.drop full) with
              | some b, some b' => some (b ++ b')
              | _, _ => none := by
        rw [← hs]; rfl
      rw [e]
      constructor
      · intro h
        split at h
        · cases h
        · rename_i hlen
          obtain ⟨m, hm⟩ := dropWhile_split (s.take full)
          generalize hg : ((s.take full).reverse.dropWhile (· == '=')).reverse = g at h hm
          split at h
          · cases h
          · rename_i hne
            have hl : (s.take full).length = full := by rw [List.length_take]; omega
            have hl' : g.length + m = full := by
              have := congrArg List.length hm
              rw [hl, List.length_append, List.length_replicate] at this
              exact this.symm
            split at h
            · rename_i b1 b2 h1 h2
              cases h
              have d : (s.drop full).length ≤ n := by rw [List.length_drop]; omega
              have r1 := (groups_iff hn ha hk _ _).mp h1
              have r2 := (ih _ d _).mp h2
              have hb : b1 ≠ [] := fun e => hne ((groups_ne_nil r1).mp e)
              have := IsPadded.block hb r1 (full := full) (by omega) r2
              have hmm : m = full - g.length := by omega
              rw [← hmm, ← hm, List.take_append_drop] at this
              exact this
            · cases h
      · intro h
        cases h with
        | nil => simp at hpos
        | @block b1 b2 t1 t2 hb h hl hr =>
          have hmem : ∀ c ∈ t1, c ∈ a := by
            rw [(isGroups_iff ha h0 _ _).mp h]
            exact groupsText_mem ha _
          have htake : (t1 ++ List.replicate (full - t1.length) '=' ++ t2).take full = t1 ++ List.replicate (full - t1.length) '=' :=
            List.take_left' (by rw [List.length_append, List.length_replicate]; omega)
          have hdrop : (t1 ++ List.replicate (full - t1.length) '=' ++ t2).drop full = t2 :=
            List.drop_left' (by rw [List.length_append, List.length_replicate]; omega)
          have hlen : ¬ (t1 ++ List.replicate (full - t1.length) '=' ++ t2).length < full := by
            simp only [List.length_append, List.length_replicate]; omega
          rw [if_neg hlen, htake, hdrop, strip_pad hp hmem, if_neg fun e => hb ((groups_ne_nil h).mpr e),
            (groups_iff hn ha hk _ _).mpr h]
          have hl2 : t2.length ≤ n := by
            simp only [List.length_append, List.length_replicate] at ht
            omega
          rw [(ih t2 hl2 b2).mpr hr]

/-! ### Case -/

theorem lowerAscii_eq (c : Char) : lowerAscii c = c.toLower := by
  unfold lowerAscii Char.toLower
  have e : (c.val ≥ 'A'.val ∧ c.val ≤ 'Z'.val) ↔ (65 ≤ c.toNat ∧ c.toNat ≤ 90) := Iff.rfl
  by_cases h : 65 ≤ c.toNat ∧ c.toNat ≤ 90
  · rw [if_pos h, dif_pos (e.mpr h)]
    apply Char.eq_of_toNat
    rw [Char.toNat_ofNat_valid (by left; omega)]
    show _ = (c.val + ('a'.val - 'A'.val)).toNat
    rw [UInt32.toNat_add]
    show _ = (c.toNat + 32) % 4294967296
    omega
  · rw [if_neg h, dif_neg (mt e.mp h)]

theorem upperAscii_eq (c : Char) : upperAscii c = c.toUpper := by
  unfold upperAscii Char.toUpper
  have e : ('a'.val ≤ c.val ∧ c.val ≤ 'z'.val) ↔ (97 ≤ c.toNat ∧ c.toNat ≤ 122) := Iff.rfl
  by_cases h : 97 ≤ c.toNat ∧ c.toNat ≤ 122
  · rw [if_pos h, dif_pos (e.mpr h)]
    apply Char.eq_of_toNat
    rw [Char.toNat_ofNat_valid (by left; omega)]
    show _ = (c.val + ('A'.val - 'a'.val)).toNat
    rw [UInt32.toNat_add]
    show _ = (c.toNat + 4294967264) % 4294967296
    omega
  · rw [if_neg h, dif_neg (mt e.mp h)]

end Verif.Bases
