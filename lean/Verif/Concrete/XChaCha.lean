import Verif.Concrete.Blake3

/-
XChaCha20-Poly1305 (RFC 8439 and draft-irtf-cfrg-xchacha-03) without associated data: the cipher with 24 byte nonces
behind `prople_crypto`'s `AEAD` (core/src/account/mod.rs:69-107). The model leaves it open (`Env.aeadEnc`,
`Env.aeadDec`); here it is written out to show that the law assumed of it holds.
-/

namespace Verif.XChaCha
open Sha2 (pieces)
open Blake3 (leVal leBytes add leBytes_length)

/-- Rotation to the left of a 32 bit word. -/
def rotl (x n : Nat) : Nat := (x <<< n % 2 ^ 32) ||| (x >>> (32 - n))

/-- The quarter round (RFC 8439, 2.1) on four words of the state. -/
def quarter (s : List Nat) (i j k l : Nat) : List Nat :=
  let a := add (s.getD i 0) (s.getD j 0)
  let d := rotl (s.getD l 0 ^^^ a) 16
  let c := add (s.getD k 0) d
  let b := rotl (s.getD j 0 ^^^ c) 12
  let a' := add a b
  let d' := rotl (d ^^^ a') 8
  let c' := add c d'
  let b' := rotl (b ^^^ c') 7
  (((s.set i a').set j b').set k c').set l d'

/-- Column round and diagonal round. -/
def doubleRound (s : List Nat) : List Nat :=
  let s := quarter s 0 4 8 12
  let s := quarter s 1 5 9 13
  let s := quarter s 2 6 10 14
  let s := quarter s 3 7 11 15
  let s := quarter s 0 5 10 15
  let s := quarter s 1 6 11 12
  let s := quarter s 2 7 8 13
  quarter s 3 4 9 14

/-- Ten double rounds. -/
def twenty (s : List Nat) : List Nat := Nat.repeat doubleRound 10 s

/-- The four constant words. -/
def constants : List Nat := [0x61707865, 0x3320646e, 0x79622d32, 0x6b206574]

/-- Little-endian words of bytes. -/
def leWords (b : Bytes) : List Nat := (pieces 4 b.length b).map leVal

/-- The ChaCha20 block function (RFC 8439, 2.3). -/
def block (key nonce : Bytes) (counter : Nat) : Bytes :=
  let s := constants ++ leWords key ++ [counter % 2 ^ 32] ++ leWords nonce
  let t := twenty s
  (List.range 16).flatMap fun i => leBytes 4 (add (s.getD i 0) (t.getD i 0))

/-- HChaCha20 (draft, 2.2): the subkey. -/
def hchacha (key nonce16 : Bytes) : Bytes :=
  let t := twenty (constants ++ leWords key ++ leWords nonce16)
  [0, 1, 2, 3, 12, 13, 14, 15].flatMap fun i => leBytes 4 (t.getD i 0)

/-- XOR with the key stream from block `counter` on (RFC 8439, 2.4); `fuel` bounds the number of blocks. -/
def xorStream (key nonce : Bytes) : Nat → Nat → Bytes → Bytes
  | 0, _, _ => []
  | fuel + 1, counter, m =>
    if m.isEmpty then [] else
      List.zipWith (· ^^^ ·) (m.take 64) (block key nonce counter) ++ xorStream key nonce fuel (counter + 1) (m.drop 64)

/-- ChaCha20 encryption from block 1 on. -/
def chacha (key nonce m : Bytes) : Bytes := xorStream key nonce m.length 1 m

/-- Poly1305 (RFC 8439, 2.5). -/
def poly1305 (key m : Bytes) : Bytes :=
  let r := leVal (key.take 16) &&& 0x0ffffffc0ffffffc0ffffffc0fffffff
  let s := leVal (key.drop 16)
  let acc := (pieces 16 m.length m).foldl (fun a b => (a + leVal (b ++ [1])) * r % (2 ^ 130 - 5)) 0
  leBytes 16 ((acc + s) % 2 ^ 128)

/-- Zeros up to a multiple of 16. -/
def zeros16 (m : Bytes) : Bytes := List.replicate ((16 - m.length % 16) % 16) 0

/-- The tag (RFC 8439, 2.8). -/
def tag (key nonce aad c : Bytes) : Bytes :=
  poly1305 ((block key nonce 0).take 32)
    (aad ++ zeros16 aad ++ c ++ zeros16 c ++ leBytes 8 aad.length ++ leBytes 8 c.length)

/-- The key and nonce for ChaCha20 that XChaCha20 derives (draft, 2.3). -/
def derive (key nonce : Bytes) : Bytes × Bytes := (hchacha key (nonce.take 16), [0, 0, 0, 0] ++ nonce.drop 16)

/-- Encryption: cipher text followed by the tag. -/
def encrypt (key nonce aad m : Bytes) : Bytes :=
  let (k, n) := derive key nonce
  let c := chacha k n m
  c ++ tag k n aad c

/-- Decryption. -/
def decrypt (key nonce aad c : Bytes) : Option Bytes :=
  if c.length < 16 then none else
    let (k, n) := derive key nonce
    let body := c.take (c.length - 16)
    if c.drop (c.length - 16) = tag k n aad body then some (chacha k n body) else none

/-! ### Decryption inverts encryption, and accepts nothing else -/

theorem block_length (key nonce : Bytes) (counter : Nat) : (block key nonce counter).length = 64 := by
  simp only [block, List.length_flatMap, leBytes_length]
  rfl

theorem tag_length (key nonce aad c : Bytes) : (tag key nonce aad c).length = 16 := by
  simp [tag, poly1305, leBytes_length]

theorem zipWith_xor_twice (m k : Bytes) (h : m.length ≤ k.length) :
    List.zipWith (· ^^^ ·) (List.zipWith (· ^^^ ·) m k) k = m := by
  induction m generalizing k with
  | nil => simp
  | cons b m ih =>
    cases k with
    | nil => simp at h
    | cons x k =>
      simp only [List.zipWith_cons_cons, List.cons.injEq]
      exact ⟨by rw [UInt8.xor_assoc, UInt8.xor_self, UInt8.xor_zero], ih k (by simpa using h)⟩

theorem xorStream_length (key nonce : Bytes) (fuel counter : Nat) (m : Bytes) (h : m.length ≤ fuel) :
    (xorStream key nonce fuel counter m).length = m.length := by
  induction fuel generalizing counter m with
  | zero => simp [xorStream]; omega
  | succ fuel ih =>
    unfold xorStream
    split
    · rename_i he; rw [List.isEmpty_iff.mp he]
    · rename_i he
      have hm : m.length ≠ 0 := by simpa [List.isEmpty_iff] using he
      rw [List.length_append, ih _ _ (by rw [List.length_drop]; omega), List.length_zipWith, block_length,
        List.length_take, List.length_drop]
      omega

theorem xorStream_twice (key nonce : Bytes) (fuel counter : Nat) (m : Bytes) (h : m.length ≤ fuel) :
    xorStream key nonce fuel counter (xorStream key nonce fuel counter m) = m := by
  induction fuel generalizing counter m with
  | zero =>
    have : m = [] := List.eq_nil_of_length_eq_zero (by omega)
    simp [xorStream, this]
  | succ fuel ih =>
    by_cases he : m = []
    · simp [xorStream, he]
    · have hm : 0 < m.length := List.length_pos_iff.mpr he
      have hd : (m.drop 64).length ≤ fuel := by rw [List.length_drop]; omega
      have e1 : xorStream key nonce (fuel + 1) counter m =
          List.zipWith (· ^^^ ·) (m.take 64) (block key nonce counter) ++
            xorStream key nonce fuel (counter + 1) (m.drop 64) := by
        rw [xorStream, if_neg (by simpa [List.isEmpty_iff] using he)]
      have hlen := xorStream_length key nonce (fuel + 1) counter m h
      generalize xorStream key nonce (fuel + 1) counter m = c at *
      have hne : c ≠ [] := by intro e; rw [e] at hlen; simp at hlen; omega
      rw [xorStream, if_neg (by simpa [List.isEmpty_iff] using hne)]
      have hz : (List.zipWith (· ^^^ ·) (m.take 64) (block key nonce counter)).length = min 64 m.length := by
        rw [List.length_zipWith, block_length, List.length_take]; omega
      by_cases h64 : 64 ≤ m.length
      · have et : c.take 64 = List.zipWith (· ^^^ ·) (m.take 64) (block key nonce counter) := by
          rw [e1, List.take_left' (by rw [hz]; omega)]
        have ed : c.drop 64 = xorStream key nonce fuel (counter + 1) (m.drop 64) := by
          rw [e1, List.drop_left' (by rw [hz]; omega)]
        rw [et, ed, ih _ _ hd, zipWith_xor_twice _ _ (by rw [block_length, List.length_take]; omega),
          List.take_append_drop]
      · have hdn : m.drop 64 = [] := List.drop_eq_nil_of_le (by omega)
        have hx : xorStream key nonce fuel (counter + 1) [] = [] := by cases fuel <;> simp [xorStream]
        have ec : c = List.zipWith (· ^^^ ·) (m.take 64) (block key nonce counter) := by rw [e1, hdn, hx, List.append_nil]
        rw [List.take_of_length_le (by omega), List.drop_eq_nil_of_le (by omega), hx, List.append_nil, ec,
          zipWith_xor_twice _ _ (by rw [block_length, List.length_take]; omega), List.take_of_length_le (by omega)]

theorem chacha_length (key nonce m : Bytes) : (chacha key nonce m).length = m.length :=
  xorStream_length _ _ _ _ _ (Nat.le_refl _)

theorem chacha_twice (key nonce m : Bytes) : chacha key nonce (chacha key nonce m) = m := by
  unfold chacha
  rw [xorStream_length _ _ _ _ _ (Nat.le_refl _)]
  exact xorStream_twice _ _ _ _ _ (Nat.le_refl _)

/-- Decryption gives `m` exactly for the encryption of `m`. -/
theorem decrypt_iff (key nonce aad c m : Bytes) : decrypt key nonce aad c = some m ↔ encrypt key nonce aad m = c := by
  unfold decrypt encrypt
  obtain ⟨k, n⟩ := derive key nonce
  simp only
  constructor
  · intro h
    split at h
    · cases h
    · rename_i hl
      split at h
      · rename_i ht
        cases h
        rw [chacha_twice, ← ht, List.take_append_drop]
      · cases h
  · rintro rfl
    have hl : (chacha k n m ++ tag k n aad (chacha k n m)).length - 16 = (chacha k n m).length := by
      rw [List.length_append, tag_length]; omega
    rw [if_neg (by rw [List.length_append, tag_length]; omega), hl, List.take_left, List.drop_left, if_pos rfl,
      chacha_twice]

theorem encrypt_length (key nonce aad m : Bytes) : (encrypt key nonce aad m).length = m.length + 16 := by
  unfold encrypt
  obtain ⟨k, n⟩ := derive key nonce
  simp only [List.length_append, chacha_length, tag_length]

/-! ### Test vectors of RFC 8439 (2.3.2, 2.5.2) and of the draft (2.2.1, A.3.1)

Quoted from memory (there is no network here); evaluation confirms them. -/

/-- Bytes counting up from `a`. -/
def count (a n : Nat) : Bytes := (List.range n).map fun i => byte (a + i)

example : hexEncode (block (count 0 32) [0, 0, 0, 9, 0, 0, 0, 0x4a, 0, 0, 0, 0] 1) =
    "10f1e7e4d13b5915500fdd1fa32071c4c7d1f4c733c068030422aa9ac3d46c4ed2826446079faa0914c2d705d98b02a2b5129cd1de164eb9cbd083e8a2503c4e".toList := by
  decide +kernel

example : (hexDecode "85d6be7857556d337f4452fe42d506a80103808afb0db2fd4abff6af4149f51b".toList).map (fun k =>
      hexEncode (poly1305 k (utf8Encode "Cryptographic Forum Research Group".toList))) =
    some "a8061dc1305136c6c22b8baf0c0127a9".toList := by decide +kernel

example : hexEncode (hchacha (count 0 32) [0, 0, 0, 9, 0, 0, 0, 0x4a, 0, 0, 0, 0, 0x31, 0x41, 0x59, 0x27]) =
    "82413b4227b27bfed30e42508a877d73a0f9e4d58a74a853c12ec41326d3ecdc".toList := by decide +kernel

example : hexEncode (encrypt (count 0x80 32) (count 0x40 24) [0x50, 0x51, 0x52, 0x53, 0xc0, 0xc1, 0xc2, 0xc3, 0xc4, 0xc5, 0xc6, 0xc7]
      (utf8Encode "Ladies and Gentlemen of the class of '99: If I could offer you only one tip for the future, sunscreen would be it.".toList)) =
    "bd6d179d3e83d43b9576579493c0e939572a1700252bfaccbed2902c21396cbb731c7f1b0b4aa6440bf3a82f4eda7e39ae64c6708c54c216cb96b72e1213b4522f8c9ba40db5d945b11b69b982c1bb9e3f3fac2bc369488f76b2383565d3fff921f9664c97637da9768812f615c68b13b52ec0875924c1c7987947deafd8780acf49".toList := by
  decide +kernel

end Verif.XChaCha
