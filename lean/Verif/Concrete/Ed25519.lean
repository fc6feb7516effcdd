import Verif.Concrete.Field25519
import Verif.Concrete.Sha2
import Verif.Concrete.Blake3

/-
Ed25519 as in RFC 8032, sections 5.1 and 6 (the reference program there, function by function): the signature scheme
behind `prople_crypto::eddsa` (core/src/account/mod.rs:13-16, core/src/verifiable/proof/serialize.rs:4, verifier.rs:1). The
model itself leaves it open (`Env.edSign`, `Env.edVerify` and so on); here it is written out to show that the laws assumed
of it hold. Numbers modulo `p` are natural numbers.
-/

namespace Verif.Ed25519
open Blake3 (leVal leBytes leBytes_length)
open Sha2 (sha512)

/-- The curve constant `d`, -121665/121666. -/
def d : Nat := 37095705934669439343138083508754565189542113879843219016388785533085940283555

/-- Subtraction modulo `p`. -/
def sub (a b : Nat) : Nat := (a + (p - b % p)) % p

/-- `sha512_modq`. -/
def hashModQ (m : Bytes) : Nat := leVal (sha512 m) % q

/-- Points in extended homogeneous coordinates: x = X/Z, y = Y/Z, x y = T/Z. -/
structure Ext where
  (X Y Z T : Nat)

/-- `point_add`. -/
def pointAdd (P Q : Ext) : Ext :=
  let A := sub P.Y P.X * sub Q.Y Q.X % p
  let B := (P.Y + P.X) * (Q.Y + Q.X) % p
  let C := 2 * P.T * Q.T * d % p
  let D := 2 * P.Z * Q.Z % p
  let E := sub B A
  let F := sub D C
  let G := D + C
  let H := B + A
  ⟨E * F % p, G * H % p, F * G % p, E * H % p⟩

/-- The neutral element. -/
def neutral : Ext := ⟨0, 1, 1, 0⟩

/-- `point_mul`: the loop, for multipliers of at most `n` bits. -/
def pointMulAux : Nat → Nat → Ext → Ext → Ext
  | 0, _, _, Q => Q
  | n + 1, s, P, Q => pointMulAux n (s / 2) (pointAdd P P) (if s % 2 = 1 then pointAdd Q P else Q)

/-- `point_mul`. All multipliers here are below 2^256. -/
def pointMul (s : Nat) (P : Ext) : Ext := pointMulAux 256 s P neutral

/-- `point_equal`. -/
def pointEqual (P Q : Ext) : Bool := P.X * Q.Z % p = Q.X * P.Z % p && P.Y * Q.Z % p = Q.Y * P.Z % p

/-- `modp_inv`. -/
def inv (x : Nat) : Nat := powMod p 256 x (p - 2)

/-- `modp_sqrt_m1`. -/
def sqrtM1 : Nat := 19681161376707505956807079304988542015446066515923890162744021073123829784752

/-- `recover_x`. The number `x2` is reduced before it is compared with 0, as the text of section 5.1.3 has it; the reference
program compares it as it is. -/
def recoverX (y sign : Nat) : Option Nat :=
  if y ≥ p then none
  else
    let x2 := sub (y * y) 1 * inv (d * y * y + 1) % p
    if x2 = 0 then if sign = 1 then none else some 0
    else
      let x := powMod p 256 x2 ((p + 3) / 8)
      let x := if x * x % p = x2 then x else x * sqrtM1 % p
      if x * x % p = x2 then some (if x % 2 = sign then x else p - x) else none

/-- The base point `G`. -/
def base : Ext where
  X := 15112221349535400772501151409588531511454012693041857206046113283949847762202
  Y := 46316835694926478169428394003475163141307993866256225615783033603165251855960
  Z := 1
  T := 46827403850823179245072216630277197565144205554125654976674165829533817101731

/-- `point_compress`. -/
def pointCompress (P : Ext) : Bytes :=
  let zinv := inv P.Z
  let x := P.X * zinv % p
  let y := P.Y * zinv % p
  leBytes 32 (y + 2 ^ 255 * (x % 2))

/-- `point_decompress`. -/
def pointDecompress (s : Bytes) : Option Ext :=
  if s.length ≠ 32 then none
  else
    let y := leVal s % 2 ^ 255
    match recoverX y (leVal s / 2 ^ 255) with
    | none => none
    | some x => some ⟨x, y, 1, x * y % p⟩

/-- `secret_expand`: the scalar, with the three lowest bits and the highest cleared and the second highest set. -/
def secretScalar (secret : Bytes) : Nat := leVal ((sha512 secret).take 32) % 2 ^ 254 / 8 * 8 + 2 ^ 254

/-- `secret_expand`: the prefix. -/
def secretPrefix (secret : Bytes) : Bytes := (sha512 secret).drop 32

/-- `secret_to_public`. -/
def publicKey (secret : Bytes) : Bytes := pointCompress (pointMul (secretScalar secret) base)

/-- `sign`. -/
def sign (secret m : Bytes) : Bytes :=
  let a := secretScalar secret
  let A := pointCompress (pointMul a base)
  let r := hashModQ (secretPrefix secret ++ m)
  let Rs := pointCompress (pointMul r base)
  let h := hashModQ (Rs ++ A ++ m)
  Rs ++ leBytes 32 ((r + h * a) % q)

/-- `verify`. -/
def verify (pub m sig : Bytes) : Bool :=
  if pub.length ≠ 32 ∨ sig.length ≠ 64 then false
  else
    match pointDecompress pub, pointDecompress (sig.take 32) with
    | some A, some R =>
      let s := leVal (sig.drop 32)
      if s ≥ q then false
      else
        let h := hashModQ (sig.take 32 ++ pub ++ m)
        pointEqual (pointMul s base) (pointAdd R (pointMul h A))
    | _, _ => false

/-! ### Tests 1 and 2 of RFC 8032, section 7.1, quoted from memory; a Python transcription of the reference program gives
the same -/

/-- The secret key of test 1. -/
def secret1 : Bytes :=
  [0x9d, 0x61, 0xb1, 0x9d, 0xef, 0xfd, 0x5a, 0x60, 0xba, 0x84, 0x4a, 0xf4, 0x92, 0xec, 0x2c, 0xc4,
   0x44, 0x49, 0xc5, 0x69, 0x7b, 0x32, 0x69, 0x19, 0x70, 0x3b, 0xac, 0x03, 0x1c, 0xae, 0x7f, 0x60]

example : hexEncode (publicKey secret1) = "d75a980182b10ab7d54bfed3c964073a0ee172f3daa62325af021a68f707511a".toList := by
  decide +kernel

example : hexEncode (sign secret1 []) =
    ("e5564300c360ac729086e2cc806e828a84877f1eb8e5d974d873e06522490155" ++
     "5fb8821590a33bacc61e39701cf9b46bd25bf5f0595bbe24655141438e7a100b").toList := by
  decide +kernel

/-- The secret key of test 2. -/
def secret2 : Bytes :=
  [0x4c, 0xcd, 0x08, 0x9b, 0x28, 0xff, 0x96, 0xda, 0x9d, 0xb6, 0xc3, 0x46, 0xec, 0x11, 0x4e, 0x0f,
   0x5b, 0x8a, 0x31, 0x9f, 0x35, 0xab, 0xa6, 0x24, 0xda, 0x8c, 0xf6, 0xed, 0x4f, 0xb8, 0xa6, 0xfb]

example : hexEncode (publicKey secret2) = "3d4017c3e843895a92b70aa74d1b7ebc9c982ccf2ec4968cc0cd55f12af4660c".toList := by
  decide +kernel

example : hexEncode (sign secret2 [0x72]) =
    ("92a009a9f0d4cab8720e820b5f642540a2b27b5416503f8fb3762223ebdb69da" ++
     "085ac1e43e15996e458f3613d0f11d8c387b2eaeb4302aeeb00d291612bb0c00").toList := by
  decide +kernel

/-- The signature is accepted for its message and refused for another. -/
example : verify (publicKey secret2) [0x72] (sign secret2 [0x72]) = true ∧
    verify (publicKey secret2) [0x73] (sign secret2 [0x72]) = false := by
  decide +kernel

end Verif.Ed25519
