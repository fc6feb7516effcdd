import Verif.Base
import Verif.Codec.Hex

/-
SHA-256, SHA-384 and SHA-512 as in FIPS 180-4: the functions behind `sha2::Sha256` (core/src/verifiable/proof/config.rs:3,
transform.rs:4) and `sha2::Sha384` (core/src/did/mod.rs:6,63-66). The model itself leaves them open (`Env.sha256`,
`Env.sha384`); here they are written out to show that the law assumed of them holds.
-/

namespace Verif.Sha2

/-- Big-endian value of bytes. -/
def beVal (bs : Bytes) : Nat := bs.foldl (fun a b => a * 256 + b.toNat) 0

/-- `n` bytes of a number, big-endian. -/
def beBytes : Nat → Nat → Bytes
  | 0, _ => []
  | n + 1, x => byte (x / 256 ^ n % 256) :: beBytes n x

theorem beBytes_length (n x : Nat) : (beBytes n x).length = n := by
  induction n with
  | zero => rfl
  | succ n ih => simp [beBytes, ih]

/-- Consecutive pieces of `n` bytes, at most `fuel` of them. -/
def pieces (n : Nat) : Nat → Bytes → List Bytes
  | 0, _ => []
  | fuel + 1, bs => if bs.isEmpty then [] else bs.take n :: pieces n fuel (bs.drop n)

/-- The parameters in which the two functions differ (FIPS 180-4, sections 4 to 6). -/
structure Params where
  /-- bits of a word -/
  bits : Nat
  /-- bytes of the length field -/
  lenBytes : Nat
  /-- rotations (the third amount of `σ0`, `σ1` is a shift) -/
  S0 : Nat × Nat × Nat
  S1 : Nat × Nat × Nat
  s0 : Nat × Nat × Nat
  s1 : Nat × Nat × Nat
  /-- round constants -/
  K : List Nat
  /-- initial hash value -/
  H : List Nat

variable (P : Params)

/-- Rotation to the right of a word. -/
def rotr (x n : Nat) : Nat := (x >>> n) ||| (x <<< (P.bits - n) % 2 ^ P.bits)

/-- `Σ0`, `Σ1` (4.4, 4.5, 4.10, 4.11). -/
def bigSigma (r : Nat × Nat × Nat) (x : Nat) : Nat := rotr P x r.1 ^^^ rotr P x r.2.1 ^^^ rotr P x r.2.2

/-- `σ0`, `σ1` (4.6, 4.7, 4.12, 4.13). -/
def smallSigma (r : Nat × Nat × Nat) (x : Nat) : Nat := rotr P x r.1 ^^^ rotr P x r.2.1 ^^^ (x >>> r.2.2)

/-- `Ch(x, y, z)` (4.2, 4.8). -/
def ch (x y z : Nat) : Nat := (x &&& y) ^^^ ((2 ^ P.bits - 1 - x) &&& z)

/-- `Maj(x, y, z)` (4.3, 4.9). -/
def maj (x y z : Nat) : Nat := (x &&& y) ^^^ (x &&& z) ^^^ (y &&& z)

/-- Padding (5.1): a one bit, zeros, the length in bits, to a multiple of 16 words. -/
def pad (m : Bytes) : Bytes :=
  let block := 2 * P.bits
  let used := (m.length + 1 + P.lenBytes) % block
  m ++ 0x80 :: (List.replicate ((block - used) % block) 0 ++ beBytes P.lenBytes (8 * m.length))

/-- The message schedule (6.2.2, 6.4.2, step 1), newest word first. -/
def schedule : Nat → List Nat → List Nat
  | 0, w => w
  | n + 1, w => schedule n
      ((smallSigma P P.s1 (w.getD 1 0) + w.getD 6 0 + smallSigma P P.s0 (w.getD 14 0) + w.getD 15 0) % 2 ^ P.bits :: w)

/-- The working variables. -/
structure Vars where
  (a b c d e f g h : Nat)

/-- One round (step 3). -/
def round (v : Vars) (kw : Nat × Nat) : Vars :=
  let t1 := (v.h + bigSigma P P.S1 v.e + ch P v.e v.f v.g + kw.1 + kw.2) % 2 ^ P.bits
  let t2 := (bigSigma P P.S0 v.a + maj v.a v.b v.c) % 2 ^ P.bits
  ⟨(t1 + t2) % 2 ^ P.bits, v.a, v.b, v.c, (v.d + t1) % 2 ^ P.bits, v.e, v.f, v.g⟩

/-- One block. -/
def compress (s : Vars) (block : Bytes) : Vars :=
  let words := (pieces (P.bits / 8) 16 block).map beVal
  let w := (schedule P (P.K.length - 16) words.reverse).reverse
  let v := (P.K.zip w).foldl (round P) s
  ⟨(s.a + v.a) % 2 ^ P.bits, (s.b + v.b) % 2 ^ P.bits, (s.c + v.c) % 2 ^ P.bits, (s.d + v.d) % 2 ^ P.bits,
   (s.e + v.e) % 2 ^ P.bits, (s.f + v.f) % 2 ^ P.bits, (s.g + v.g) % 2 ^ P.bits, (s.h + v.h) % 2 ^ P.bits⟩

/-- The final hash value, as words. -/
def words (m : Bytes) : List Nat :=
  let p := pad P m
  let s := (pieces (2 * P.bits) p.length p).foldl (compress P)
    ⟨P.H.getD 0 0, P.H.getD 1 0, P.H.getD 2 0, P.H.getD 3 0, P.H.getD 4 0, P.H.getD 5 0, P.H.getD 6 0, P.H.getD 7 0⟩
  [s.a, s.b, s.c, s.d, s.e, s.f, s.g, s.h]

/-- SHA-256 (FIPS 180-4, 4.1.2, 4.2.2, 5.3.3). -/
def sha256Params : Params where
  bits := 32
  lenBytes := 8
  S0 := (2, 13, 22)
  S1 := (6, 11, 25)
  s0 := (7, 18, 3)
  s1 := (17, 19, 10)
  K :=
  [0x428a2f98, 0x71374491, 0xb5c0fbcf, 0xe9b5dba5, 0x3956c25b, 0x59f111f1, 0x923f82a4, 0xab1c5ed5,
   0xd807aa98, 0x12835b01, 0x243185be, 0x550c7dc3, 0x72be5d74, 0x80deb1fe, 0x9bdc06a7, 0xc19bf174,
   0xe49b69c1, 0xefbe4786, 0x0fc19dc6, 0x240ca1cc, 0x2de92c6f, 0x4a7484aa, 0x5cb0a9dc, 0x76f988da,
   0x983e5152, 0xa831c66d, 0xb00327c8, 0xbf597fc7, 0xc6e00bf3, 0xd5a79147, 0x06ca6351, 0x14292967,
   0x27b70a85, 0x2e1b2138, 0x4d2c6dfc, 0x53380d13, 0x650a7354, 0x766a0abb, 0x81c2c92e, 0x92722c85,
   0xa2bfe8a1, 0xa81a664b, 0xc24b8b70, 0xc76c51a3, 0xd192e819, 0xd6990624, 0xf40e3585, 0x106aa070,
   0x19a4c116, 0x1e376c08, 0x2748774c, 0x34b0bcb5, 0x391c0cb3, 0x4ed8aa4a, 0x5b9cca4f, 0x682e6ff3,
   0x748f82ee, 0x78a5636f, 0x84c87814, 0x8cc70208, 0x90befffa, 0xa4506ceb, 0xbef9a3f7, 0xc67178f2]
  H := [0x6a09e667, 0xbb67ae85, 0x3c6ef372, 0xa54ff53a, 0x510e527f, 0x9b05688c, 0x1f83d9ab, 0x5be0cd19]

/-- SHA-384 (FIPS 180-4, 4.1.3, 4.2.3, 5.3.4). -/
def sha384Params : Params where
  bits := 64
  lenBytes := 16
  S0 := (28, 34, 39)
  S1 := (14, 18, 41)
  s0 := (1, 8, 7)
  s1 := (19, 61, 6)
  K :=
  [0x428a2f98d728ae22, 0x7137449123ef65cd, 0xb5c0fbcfec4d3b2f, 0xe9b5dba58189dbbc, 0x3956c25bf348b538,
   0x59f111f1b605d019, 0x923f82a4af194f9b, 0xab1c5ed5da6d8118, 0xd807aa98a3030242, 0x12835b0145706fbe,
   0x243185be4ee4b28c, 0x550c7dc3d5ffb4e2, 0x72be5d74f27b896f, 0x80deb1fe3b1696b1, 0x9bdc06a725c71235,
   0xc19bf174cf692694, 0xe49b69c19ef14ad2, 0xefbe4786384f25e3, 0x0fc19dc68b8cd5b5, 0x240ca1cc77ac9c65,
   0x2de92c6f592b0275, 0x4a7484aa6ea6e483, 0x5cb0a9dcbd41fbd4, 0x76f988da831153b5, 0x983e5152ee66dfab,
   0xa831c66d2db43210, 0xb00327c898fb213f, 0xbf597fc7beef0ee4, 0xc6e00bf33da88fc2, 0xd5a79147930aa725,
   0x06ca6351e003826f, 0x142929670a0e6e70, 0x27b70a8546d22ffc, 0x2e1b21385c26c926, 0x4d2c6dfc5ac42aed,
   0x53380d139d95b3df, 0x650a73548baf63de, 0x766a0abb3c77b2a8, 0x81c2c92e47edaee6, 0x92722c851482353b,
   0xa2bfe8a14cf10364, 0xa81a664bbc423001, 0xc24b8b70d0f89791, 0xc76c51a30654be30, 0xd192e819d6ef5218,
   0xd69906245565a910, 0xf40e35855771202a, 0x106aa07032bbd1b8, 0x19a4c116b8d2d0c8, 0x1e376c085141ab53,
   0x2748774cdf8eeb99, 0x34b0bcb5e19b48a8, 0x391c0cb3c5c95a63, 0x4ed8aa4ae3418acb, 0x5b9cca4f7763e373,
   0x682e6ff3d6b2b8a3, 0x748f82ee5defb2fc, 0x78a5636f43172f60, 0x84c87814a1f0ab72, 0x8cc702081a6439ec,
   0x90befffa23631e28, 0xa4506cebde82bde9, 0xbef9a3f7b2c67915, 0xc67178f2e372532b, 0xca273eceea26619c,
   0xd186b8c721c0c207, 0xeada7dd6cde0eb1e, 0xf57d4f7fee6ed178, 0x06f067aa72176fba, 0x0a637dc5a2c898a6,
   0x113f9804bef90dae, 0x1b710b35131c471b, 0x28db77f523047d84, 0x32caab7b40c72493, 0x3c9ebe0a15c9bebc,
   0x431d67c49c100d4c, 0x4cc5d4becb3e42b6, 0x597f299cfc657e2a, 0x5fcb6fab3ad6faec, 0x6c44198c4a475817]
  H :=
  [0xcbbb9d5dc1059ed8, 0x629a292a367cd507, 0x9159015a3070dd17, 0x152fecd8f70e5939,
   0x67332667ffc00b31, 0x8eb44a8768581511, 0xdb0c2e0d64f98fa7, 0x47b5481dbefa4fa4]

/-- SHA-512 (FIPS 180-4, 5.3.5); it differs from SHA-384 in the initial value and in using all eight words. -/
def sha512Params : Params :=
  { sha384Params with
    H :=
    [0x6a09e667f3bcc908, 0xbb67ae8584caa73b, 0x3c6ef372fe94f82b, 0xa54ff53a5f1d36f1,
     0x510e527fade682d1, 0x9b05688c2b3e6c1f, 0x1f83d9abfb41bd6b, 0x5be0cd19137e2179] }

/-- `Sha256::digest`. -/
def sha256 (m : Bytes) : Bytes := (words sha256Params m).flatMap (beBytes 4)

/-- `Sha384::digest`: the first six words. -/
def sha384 (m : Bytes) : Bytes := ((words sha384Params m).take 6).flatMap (beBytes 8)

/-- `Sha512::digest`, used inside Ed25519. -/
def sha512 (m : Bytes) : Bytes := (words sha512Params m).flatMap (beBytes 8)

theorem sha256_length (m : Bytes) : (sha256 m).length = 32 := by
  simp [sha256, words, beBytes_length]

theorem sha384_length (m : Bytes) : (sha384 m).length = 48 := by
  simp [sha384, words, beBytes_length]

theorem sha512_length (m : Bytes) : (sha512 m).length = 64 := by
  simp [sha512, words, beBytes_length]

/-! ### The test vectors of FIPS 180-4; Python's `hashlib` gives the same -/

example : hexEncode (sha256 (utf8Encode "".toList)) =
    "e3b0c44298fc1c149afbf4c8996fb92427ae41e4649b934ca495991b7852b855".toList := by
  decide +kernel

example : hexEncode (sha256 (utf8Encode "abc".toList)) =
    "ba7816bf8f01cfea414140de5dae2223b00361a396177a9cb410ff61f20015ad".toList := by
  decide +kernel

example : hexEncode (sha256 (utf8Encode "abcdbcdecdefdefgefghfghighijhijkijkljklmklmnlmnomnopnopq".toList)) =
    "248d6a61d20638b8e5c026930c3e6039a33ce45964ff2167f6ecedd419db06c1".toList := by
  decide +kernel

example : hexEncode (sha384 (utf8Encode "".toList)) =
    "38b060a751ac96384cd9327eb1b1e36a21fdb71114be07434c0cc7bf63f6e1da274edebfe76f65fbd51ad2f14898b95b".toList := by
  decide +kernel

example : hexEncode (sha384 (utf8Encode "abc".toList)) =
    "cb00753f45a35e8bb5a03d699ac65007272c32ab0eded1631a8b605a43ff5bed8086072ba1e7cc2358baeca134c825a7".toList := by
  decide +kernel

example : hexEncode (sha384 (utf8Encode "abcdbcdecdefdefgefghfghighijhijkijkljklmklmnlmnomnopnopq".toList)) =
    "3391fdddfc8dc7393707a65b1b4709397cf8b1d162af05abfe8f450de5f36bc6b0455a8520bc4e6f5fe95b1fe3c8452b".toList := by
  decide +kernel

example : hexEncode (sha512 (utf8Encode "abc".toList)) =
    ("ddaf35a193617abacc417349ae20413112e6fa4e89a97ea20a9eeee64b55d39a" ++
     "2192992a274fc1a836ba3c23a3feebbd454d4423643ce80e2a9ac94fa54ca49f").toList := by
  decide +kernel

end Verif.Sha2
