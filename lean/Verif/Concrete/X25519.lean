import Verif.Concrete.Ed25519

/-
X25519 as in RFC 7748, section 5: the key agreement behind `prople_crypto::ecdh` (core/src/keys/agreement.rs:6-9,
core/src/doc/mod.rs:27). The repository makes key pairs and publishes public keys; it never computes a shared secret.
-/

namespace Verif.X25519
open Blake3 (leVal leBytes leBytes_length)
open Ed25519 (p sub inv)

/-- `decodeScalar25519`. -/
def decodeScalar (k : Bytes) : Nat := leVal k % 2 ^ 254 / 8 * 8 + 2 ^ 254

/-- `decodeUCoordinate`: the highest bit is ignored. -/
def decodeU (u : Bytes) : Nat := leVal u % 2 ^ 255

/-- The variables of the Montgomery ladder. -/
structure Ladder where
  (x2 z2 x3 z3 : Nat)

/-- `cswap`. -/
def cswap (b : Bool) (l : Ladder) : Ladder := if b then ⟨l.x3, l.z3, l.x2, l.z2⟩ else l

/-- One step of the ladder, after swapping. -/
def step (x1 : Nat) (l : Ladder) : Ladder :=
  let A := (l.x2 + l.z2) % p
  let AA := A * A % p
  let B := sub l.x2 l.z2
  let BB := B * B % p
  let E := sub AA BB
  let C := (l.x3 + l.z3) % p
  let D := sub l.x3 l.z3
  let DA := D * A % p
  let CB := C * B % p
  ⟨AA * BB % p, E * (AA + 121665 * E) % p, (DA + CB) * (DA + CB) % p, x1 * (sub DA CB * sub DA CB) % p⟩

/-- The loop, from bit `n - 1` down to bit 0. -/
def loop (k x1 : Nat) : Nat → Ladder → Bool → Ladder
  | 0, l, swap => cswap swap l
  | t + 1, l, swap => loop k x1 t (step x1 (cswap (swap != k.testBit t) l)) (k.testBit t)

/-- The function `X25519`. -/
def x25519 (k u : Bytes) : Bytes :=
  let l := loop (decodeScalar k) (decodeU u) 255 ⟨1, 0, decodeU u, 1⟩ false
  leBytes 32 (l.x2 * inv l.z2 % p)

/-- The public key of a secret: the base point has u-coordinate 9. -/
def publicKey (k : Bytes) : Bytes := x25519 k (leBytes 32 9)

theorem publicKey_length (k : Bytes) : (publicKey k).length = 32 := leBytes_length _ _

/-! ### Test vectors of RFC 7748, sections 5.2 and 6.1, quoted from memory; a Python transcription gives the same -/

/-- A byte string from hex text. -/
def hex (s : String) : Bytes := (hexDecode s.toList).getD []

example : x25519 (hex "a546e36bf0527c9d3b16154b82465edd62144c0ac1fc5a18506a2244ba449ac4")
    (hex "e6db6867583030db3594c1a424b15f7c726624ec26b3353b10a903a6d0ab1c4c") =
    hex "c3da55379de9c6908e94ea4df28d084f32eccf03491c71f754b4075577a28552" := by decide +kernel

/-- One iteration. -/
example : x25519 (leBytes 32 9) (leBytes 32 9) =
    hex "422c8e7a6227d7bca1350b3e2bb7279f7897b87bb6854b783c60e80311ae3079" := by decide +kernel

/-- Bob's key pair. -/
example : publicKey (hex "5dab087e624a8a4b79e17f8b83800ee66f3bb1292618b6fd1c2f8b27ff88e0eb") =
    hex "de9edb7d7b7dc1b4d35b61c2ece435373f8343c85b78674dadfc7e146f882b4f" := by decide +kernel

/-- Bob's secret with Alice's public key. -/
example : x25519 (hex "5dab087e624a8a4b79e17f8b83800ee66f3bb1292618b6fd1c2f8b27ff88e0eb")
    (hex "8520f0098930a754748b7ddcb43ef75a0dbf3a0d26381af4eba4a98eaa9b4e6a") =
    hex "4a5d9d5ba4ce2de1728e3bf480350f25e07e21c947d19e3376f09b3c1e161742" := by decide +kernel

end Verif.X25519
