import Verif.Json.Decode
import Verif.Json.Utf8
import Verif.Codec.Hex
import Verif.Codec.Multibase
import Verif.Codec.Multihash

/-
The third-party primitives the code calls, as a parameter of the model, and the laws assumed of them.

Nothing here is a Lean axiom: `Env` is a structure, every theorem quantifies over all of its instances, and
a law is a hypothesis of exactly the theorems that need it. `Verif/Toy.lean` gives an instance satisfying
all laws.
-/

namespace Verif

/-- Argon2 cost parameters (`prople_crypto::passphrase::kdf_params::KdfParams`, filled in at
core/src/account/mod.rs:77-82). -/
structure KdfParams where
  mCost : Nat
  pCost : Nat
  tCost : Nat
  outputLen : Nat
  deriving DecidableEq

/-- The part of `prople_crypto::keysecure::KeySecure` the repository reads
(core/src/account/mod.rs:72,76-85,90): cipher text and nonce as hex text, KDF cost parameters, salt text. -/
structure KeySecure where
  cipherText : Str
  nonce : Str
  kdfParams : KdfParams
  salt : Str
  deriving DecidableEq

/-- A failure of a dependency that is modelled concretely, with the input it failed on. -/
inductive Fail where
  /-- `hex::decode` of a text -/
  | hex (s : Str)
  /-- the nonce bytes are not 24 -/
  | nonce (b : Bytes)
  /-- `multibase::decode` of a text -/
  | multibase (s : Str)
  /-- `Multihash::wrap` of a digest -/
  | multihash (b : Bytes)
  /-- `String::from_utf8` of bytes -/
  | utf8 (b : Bytes)
  /-- `serde_json::from_slice::<VC>` of bytes -/
  | vc (b : Bytes)
  /-- `serde_json::from_slice::<VP>` of bytes -/
  | vp (b : Bytes)
  deriving DecidableEq

/-- Third-party types and functions. An `Except Str α` result is a Rust `Result` whose error is only ever
turned into text with `to_string()`. -/
structure Env where
  /-- error text (`to_string()`) of a failure of a dependency that is modelled concretely -/
  msg : Fail → Str
  /-- finite `f64` -/
  F : Type
  /-- `ryu` printing as used by serde_json -/
  floatPrint : F → Bytes
  /-- serde_json's `f64` parser; `none` is "number out of range" -/
  floatParse : Bytes → Option F
  /-- canonical number text of `serde_jcs` -/
  jcsNum : Num F → Bytes
  /-- member order of `serde_jcs` -/
  keyLe : Str → Str → Bool
  sha256 : Bytes → Bytes
  sha384 : Bytes → Bytes
  blake3 : Bytes → Bytes
  /-- randomness of `prople_crypto::eddsa::keypair::KeyPair::generate` -/
  EdSeed : Type
  /-- `prople_crypto::eddsa::keypair::KeyPair` -/
  EdKP : Type
  /-- `prople_crypto::eddsa::privkey::PrivKey` -/
  EdPriv : Type
  /-- `prople_crypto::eddsa::pubkey::PubKey` -/
  EdPub : Type
  edGenerate : EdSeed → EdKP
  edPub : EdKP → EdPub
  edPriv : EdKP → EdPriv
  /-- `PubKey::serialize().bytes()`; `PubKey::to_hex` is its hex text -/
  edPubBytes : EdPub → Bytes
  /-- `PubKey::from_hex` after hex decoding -/
  edPubOfBytes : Bytes → Option EdPub
  /-- `PrivKey::to_pem` -/
  edPem : EdPriv → Except Str Str
  /-- `KeyPair::from_pem` -/
  edOfPem : Str → Except Str EdKP
  /-- `KeyPair::signature(msg).sign()` -/
  edSign : EdKP → Bytes → Bytes
  /-- `PubKey::verify(msg, signature_hex)` -/
  edVerify : EdPub → Bytes → Str → Except Str Bool
  /-- randomness of `prople_crypto::ecdh::keypair::KeyPair::generate` -/
  DhSeed : Type
  /-- `prople_crypto::ecdh::keypair::KeyPair` -/
  DhKP : Type
  /-- `prople_crypto::ecdh::pubkey::PublicKey` -/
  DhPub : Type
  dhGenerate : DhSeed → DhKP
  dhPub : DhKP → DhPub
  dhPubBytes : DhPub → Bytes
  dhPubOfBytes : Bytes → Option DhPub
  /-- secret bytes; `KeyPair::to_hex` is their hex text -/
  dhSecret : DhKP → Bytes
  /-- cost parameters used when exporting -/
  kdfDefault : KdfParams
  /-- `Passphrase::new(params).hash(password, salt)` -/
  kdf : KdfParams → Str → Bytes → Except Str Bytes
  /-- `AEAD::encrypt` under key, nonce -/
  aeadEnc : Bytes → Bytes → Bytes → Except Str Bytes
  /-- `AEAD::decrypt` under key, nonce -/
  aeadDec : Bytes → Bytes → Bytes → Except Str Bytes
  /-- `str::parse::<DateTime<Utc>>` -/
  parseDate : Str → Except Str Unit
  Multiaddr : Type
  /-- `str::parse::<Multiaddr>` -/
  parseMultiaddr : Str → Except Str Multiaddr
  /-- which bases of multibase take letters of either case (read for base16 here) -/
  mbFold : MBase → Bool
  /-- multibase bases that are not modelled concretely -/
  mbOther : MBase → Str → Option Bytes

namespace Env

/-- `multibase::decode`. -/
def mbDecode (E : Env) (s : Str) : Option (MBase × Bytes) := multibaseDecode (E.mbFold .base16Lower) E.mbOther s

/-- Digest lengths. -/
structure HashLaws (E : Env) : Prop where
  sha256_len : ∀ b, (E.sha256 b).length = 32
  sha384_len : ∀ b, (E.sha384 b).length = 48
  blake3_len : ∀ b, (E.blake3 b).length = 32

/-- Ed25519: signatures of a key verify under its public key; serialised public keys are read back. -/
structure EdLaws (E : Env) : Prop where
  verify_sign : ∀ k m, E.edVerify (E.edPub k) m (hexEncode (E.edSign k m)) = .ok true
  pub_bytes : ∀ p, E.edPubOfBytes (E.edPubBytes p) = some p

/-- PEM: an exported private key is read back as its key pair. -/
def PemLaw (E : Env) : Prop := ∀ k t, E.edPem (E.edPriv k) = .ok t → E.edOfPem t = .ok k

/-- X25519: serialised public keys are read back. -/
def DhLaw (E : Env) : Prop := ∀ p, E.dhPubOfBytes (E.dhPubBytes p) = some p

/-- AEAD: decryption inverts encryption. -/
def AeadLaw (E : Env) : Prop := ∀ k n p c, E.aeadEnc k n p = .ok c → E.aeadDec k n c = .ok p

/-- `f64` text. -/
def NumLaws (E : Env) : Prop := FloatLaws E.floatPrint

/-- JCS: canonical numbers are JSON number tokens, the member order is a total order. -/
structure JcsLaws (E : Env) : Prop where
  num_tok : ∀ n, IsNumTok (E.jcsNum n)
  key_total : ∀ a b, E.keyLe a b = true ∨ E.keyLe b a = true
  key_trans : ∀ a b c, E.keyLe a b = true → E.keyLe b c = true → E.keyLe a c = true
  key_antisymm : ∀ a b, E.keyLe a b = true → E.keyLe b a = true → a = b

end Env

/-- `serde_json::Value`: a JSON value whose objects are ordered maps. -/
abbrev Value (E : Env) := {j : Json (Num E.F) // j.Sorted}

/-- `serde_json::to_string` of a serialised tree. -/
def jsonText (E : Env) (j : Json (Num E.F)) : Str := bytesToStr (j.text (printNum E.floatPrint))

/-- `serde_jcs::to_string` of a serialised tree. -/
def jcsText (E : Env) (j : Json (Num E.F)) : Str := bytesToStr (j.jcs E.keyLe E.jcsNum)

/-- `Deserialize for Value`. -/
def decVal' (E : Env) (d : Nat) (r : Raw) : Option (Value E) :=
  match h : decValue E.floatParse d r with
  | some j => some ⟨j, decValue_sorted r d j h⟩
  | none => none

/-- `serde_json::from_slice` for a type read by `f`; the recursion limit starts at 128 (crate default). -/
def fromSlice {α : Type} (f : Nat → Raw → Option α) (bs : Bytes) : Option α :=
  match Raw.parse bs with
  | none => none
  | some r => f 128 r

theorem jsonText_bytes {E : Env} (L : E.NumLaws) (j : Json (Num E.F)) :
    utf8Encode (jsonText E j) = j.text (printNum E.floatPrint) :=
  utf8Encode_bytesToStr (Json.text_utf8 (printNum_tok L.tok) j)

theorem jcsText_bytes {E : Env} (L : E.JcsLaws) (j : Json (Num E.F)) :
    utf8Encode (jcsText E j) = j.jcs E.keyLe E.jcsNum :=
  utf8Encode_bytesToStr (Json.jcs_utf8 L.num_tok j)

/-- Reading printed JSON text: the token tree comes back. -/
theorem fromSlice_text {E : Env} (L : E.NumLaws) {α : Type} (f : Nat → Raw → Option α) (j : Json (Num E.F)) :
    fromSlice f (utf8Encode (jsonText E j)) = f 128 (j.toRaw (printNum E.floatPrint)) := by
  rw [jsonText_bytes L]
  unfold fromSlice Json.text
  rw [Raw.parse_render _ (Json.toRaw_ok (printNum_tok L.tok) j)]

/-- The floating point numbers of a value parse back to themselves after printing. (serde_json without the feature
`float_roundtrip` does not guarantee this for every number.) -/
def Survives (E : Env) (j : Json (Num E.F)) : Prop :=
  ∀ f, Num.float f ∈ j.nums → E.floatParse (E.floatPrint f) = some f

/-- A `Value` with its numbers replaced. -/
def Value.mapNum {E : Env} (ρ : Num E.F → Num E.F) (v : Value E) : Value E := ⟨v.1.mapNum ρ, Json.sorted_mapNum ρ v.1 v.2⟩

theorem decVal'_toRaw {E : Env} {pr : Num E.F → Bytes} {ρ : Num E.F → Num E.F} (v : Value E)
    (hn : ∀ n ∈ v.1.nums, decNum E.floatParse (pr n) = some (ρ n)) (d : Nat) (h : v.1.depth < d) :
    decVal' E d (v.1.toRaw pr) = some (v.mapNum ρ) := by
  have := decValue_toRaw v.1 hn v.2 d h
  unfold decVal'
  split
  · rename_i j hj
    rw [this] at hj
    cases hj
    rfl
  · rename_i hj
    rw [this] at hj
    cases hj

theorem decVal'_deep {E : Env} (v : Value E) (d : Nat) (hd : 1 ≤ d) (h : d ≤ v.1.depth) :
    decVal' E d (v.1.toRaw (printNum E.floatPrint)) = none := by
  have := decValue_deep (fp := E.floatPrint) (fr := E.floatParse) v.1 d hd h
  unfold decVal'
  split
  · rename_i j hj
    rw [this] at hj
    cases hj
  · rfl

end Verif
