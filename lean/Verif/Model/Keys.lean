import Verif.Model.Types

/-
core/src/keys: verification.rs (Ed25519 pairs), agreement.rs (X25519 pairs), secure.rs.

`to_keysecure` and `KeySecure::decrypt` are functions of the dependency `prople-crypto`; their contract is
modelled here as `exportKeySecure` / `KeySecure.decrypt`: derive a key from the password with the KDF, a
fresh salt and the default cost parameters, encrypt the private key export (PEM text for Ed25519, hex text for
X25519) under a fresh 24 byte nonce, store cipher text and nonce as hex. Salt and nonce are arguments.
-/

namespace Verif

/-- `keys::secure::Error`, core/src/keys/secure.rs:11-27. -/
inductive KeySecureError where
  | buildKeySecureError
  | buildIdentityPrivateKeysError
  | buildJSONError
  | storageError
  | decryptError (m : Str)
  deriving DecidableEq

/-- `Display for keys::secure::Error` (thiserror attributes), core/src/keys/secure.rs:13-26. -/
def KeySecureError.display : KeySecureError → Str
  | .buildKeySecureError => "keysecure error".toList
  | .buildIdentityPrivateKeysError => "keysecure error: unable to build identity private keys".toList
  | .buildJSONError => "keysecure error: unable to build JSON".toList
  | .storageError => "keysecure error: storage error".toList
  | .decryptError m => "keysecure error: decrypt error: ".toList ++ m

/-- Salt text and nonce drawn by one `to_keysecure` call. -/
structure ExportRandom where
  salt : Str
  nonce : Bytes
  /-- the generated nonce has the AEAD's size -/
  nonce_len : nonce.length = 24

/-- Contract of `ToKeySecure::to_keysecure` (dependency), for a given plaintext. -/
def exportKeySecure (E : Env) (r : ExportRandom) (plain : Bytes) (password : Str) : Except Str KeySecure := do
  let key ← E.kdf E.kdfDefault password (utf8Encode r.salt)
  let cipher ← E.aeadEnc key r.nonce plain
  .ok { cipherText := hexEncode cipher, nonce := hexEncode r.nonce, kdfParams := E.kdfDefault, salt := r.salt }

/-- Contract of `KeySecure::decrypt` (dependency). -/
def KeySecure.decrypt (E : Env) (ks : KeySecure) (password : Str) : Except Str Bytes :=
  match hexDecode ks.cipherText with
  | none => .error (E.msg (.hex ks.cipherText))
  | some cipher => do
    let key ← E.kdf ks.kdfParams password (utf8Encode ks.salt)
    match hexDecode ks.nonce with
    | none => .error (E.msg (.hex ks.nonce))
    | some nonce => if nonce.length ≠ 24 then .error (E.msg (.nonce nonce)) else E.aeadDec key nonce cipher

namespace Verification

/-- `verification::Error`, core/src/keys/verification.rs:13-17. -/
inductive Error where
  | generatePrivKeyError
  | decodePublicKeyError
  | generateSecureKeyError
  deriving DecidableEq

/-- `verification::Pairs`, core/src/keys/verification.rs:21-24. -/
structure Pairs (E : Env) where
  pubKey : Str
  privKey : E.EdPriv

/-- `Pairs::is_valid`, core/src/keys/verification.rs:27-35. -/
def Pairs.isValid {E : Env} (p : Pairs E) : Bool :=
  match E.edPem p.privKey with
  | .error _ => false
  | .ok pem => !p.pubKey.isEmpty || !pem.isEmpty

/-- `Pairs::decode_pub_key`, core/src/keys/verification.rs:37-46. `PubKey::from_hex` is hex decoding followed
by the key reader. -/
def Pairs.decodePubKey {E : Env} (p : Pairs E) : Except Error E.EdPub :=
  match E.mbDecode p.pubKey with
  | none => .error .decodePublicKeyError
  | some (_, bytes) =>
    match utf8Decode bytes with
    | none => .error .decodePublicKeyError
    | some hex =>
      match (hexDecode hex).bind E.edPubOfBytes with
      | none => .error .decodePublicKeyError
      | some k => .ok k

/-- `build_keysecure`, core/src/keys/verification.rs:49-55; the plaintext is the PEM text of the key. -/
def Pairs.buildKeysecure {E : Env} (r : ExportRandom) (p : Pairs E) (password : Str) :
    Except KeySecureError KeySecure :=
  match E.edPem p.privKey with
  | .error _ => .error .buildKeySecureError
  | .ok pem =>
    match exportKeySecure E r (utf8Encode pem) password with
    | .error _ => .error .buildKeySecureError
    | .ok ks => .ok ks

/-- `Key { keypair }`, core/src/keys/verification.rs:58-60. -/
structure Key (E : Env) where
  keypair : E.EdKP

/-- `Key::new`, core/src/keys/verification.rs:69-73. -/
def Key.new (E : Env) (seed : E.EdSeed) : Key E := ⟨E.edGenerate seed⟩

/-- `Key::generate`, core/src/keys/verification.rs:75-86. -/
def Key.generate {E : Env} (k : Key E) : Pairs E :=
  let pubKeyHex := hexEncode (E.edPubBytes (E.edPub k.keypair))
  { pubKey := multibaseEncode58 (utf8Encode pubKeyHex), privKey := E.edPriv k.keypair }

end Verification

namespace Agreement

/-- `agreement::Error`, core/src/keys/agreement.rs:14-17. -/
inductive Error where
  | decodePublicKeyError
  deriving DecidableEq

/-- `Display for agreement::Error`, core/src/keys/agreement.rs:15. -/
def Error.display : Error → Str
  | .decodePublicKeyError => "decoding public key error".toList

/-- `agreement::Pairs`, core/src/keys/agreement.rs:21-24. -/
structure Pairs (E : Env) where
  pubKey : Str
  privKey : E.DhKP

/-- `Pairs::is_valid`, core/src/keys/agreement.rs:27-30. -/
def Pairs.isValid {E : Env} (p : Pairs E) : Bool :=
  !p.pubKey.isEmpty || !(hexEncode (E.dhSecret p.privKey)).isEmpty

/-- `Pairs::decode_public_key`, core/src/keys/agreement.rs:32-43. -/
def Pairs.decodePublicKey {E : Env} (p : Pairs E) : Except Error E.DhPub :=
  match E.mbDecode p.pubKey with
  | none => .error .decodePublicKeyError
  | some (_, bytes) =>
    match utf8Decode bytes with
    | none => .error .decodePublicKeyError
    | some hex =>
      match (hexDecode hex).bind E.dhPubOfBytes with
      | none => .error .decodePublicKeyError
      | some k => .ok k

/-- `build_keysecure`, core/src/keys/agreement.rs:46-52; the plaintext is the hex text of the secret. -/
def Pairs.buildKeysecure {E : Env} (r : ExportRandom) (p : Pairs E) (password : Str) :
    Except KeySecureError KeySecure :=
  match exportKeySecure E r (utf8Encode (hexEncode (E.dhSecret p.privKey))) password with
  | .error _ => .error .buildKeySecureError
  | .ok ks => .ok ks

/-- `Key { keypair }`, core/src/keys/agreement.rs:57-59. -/
structure Key (E : Env) where
  keypair : E.DhKP

/-- `Key::new`, core/src/keys/agreement.rs:68-72. -/
def Key.new (E : Env) (seed : E.DhSeed) : Key E := ⟨E.dhGenerate seed⟩

/-- `Key::generate`, core/src/keys/agreement.rs:74-82. -/
def Key.generate {E : Env} (k : Key E) : Pairs E :=
  let pubKey := hexEncode (E.dhPubBytes (E.dhPub k.keypair))
  { pubKey := multibaseEncode58 (utf8Encode pubKey), privKey := k.keypair }

end Agreement

/-- `PrivateKeyPairs`, core/src/keys/secure.rs:43-46. -/
structure PrivateKeyPairs where
  verification : KeySecure
  aggrement : KeySecure
  deriving DecidableEq

/-- `decrypt_verification`, core/src/keys/secure.rs:49-56. -/
def PrivateKeyPairs.decryptVerification (E : Env) (p : PrivateKeyPairs) (password : Str) :
    Except KeySecureError Bytes :=
  match p.verification.decrypt E password with
  | .error m => .error (.decryptError m)
  | .ok b => .ok b

/-- `decrypt_agreement`, core/src/keys/secure.rs:58-65. -/
def PrivateKeyPairs.decryptAgreement (E : Env) (p : PrivateKeyPairs) (password : Str) :
    Except KeySecureError Bytes :=
  match p.aggrement.decrypt E password with
  | .error m => .error (.decryptError m)
  | .ok b => .ok b

/-- `IdentityPrivateKeyPairs`, core/src/keys/secure.rs:73-81. -/
structure IdentityPrivateKeyPairs where
  identity : Str
  authentication : Option PrivateKeyPairs
  assertion : Option PrivateKeyPairs
  deriving DecidableEq

/-- `IdentityPrivateKeyPairs::new`, core/src/keys/secure.rs:84-90. -/
def IdentityPrivateKeyPairs.new (identity : Str) : IdentityPrivateKeyPairs :=
  { identity, authentication := none, assertion := none }

end Verif
