import Verif.Env

/-
core/src/types.rs: constants, `DIDError` with its `Display` text, `JSONValue`.
-/

namespace Verif

/-- core/src/types.rs:16 -/
def DID_SYNTAX_MARK : Char := ':'
/-- core/src/types.rs:17 -/
def DID_SYNTAX_SCHEME : Str := "did".toList
/-- core/src/types.rs:18 -/
def DID_SYNTAX_METHOD : Str := "prople".toList
/-- core/src/types.rs:20 -/
def CONTEXT_DEFAULT : Str := "https://www.w3.org/ns/did/v1".toList
/-- core/src/types.rs:21 -/
def CONTEXT_ED25519 : Str := "https://w3id.org/security/suites/ed25519-2020/v1".toList
/-- core/src/types.rs:22 -/
def CONTEXT_X25519 : Str := "https://w3id.org/security/suites/x25519-2020/v1".toList
/-- core/src/types.rs:23 -/
def CONTEXT_VC_V2 : Str := "https://www.w3.org/ns/credentials/v2".toList
/-- core/src/types.rs:24 -/
def CONTEXT_VC : Str := "https://www.w3.org/2018/credentials/#VerifiableCredential".toList
/-- core/src/types.rs:26 -/
def VERIFICATION_TYPE_ED25519 : Str := "Ed25519VerificationKey2020".toList
/-- core/src/types.rs:27 -/
def VERIFICATION_TYPE_X25519 : Str := "X25519KeyAgreementKey2020".toList
/-- core/src/types.rs:29 -/
def JSON_MIME_TYPE : Str := "application/json".toList
/-- core/src/types.rs:33 -/
def BLAKE3_HASH_CODE : Nat := 0x1e

/-- `DIDError`, core/src/types.rs:36-106. -/
inductive DIDError where
  | invalidDID
  | invalidPEM
  | invalidKeysecure (m : Str)
  | generateMultiAddrError (m : Str)
  | generateDocError (m : Str)
  | generateJSONError (m : Str)
  | generateJSONJCSError (m : Str)
  | generateVCError (m : Str)
  | generateHashLinkError (m : Str)
  | buildProofError (m : Str)
  | buildPayloadError (m : Str)
  | validateError (m : Str)
  | decodeJSONError (m : Str)
  | invalidJSONBytes (m : Str)
  | decodePubKeyError (m : Str)
  | hashLinkError (m : Str)
  | parseURIError (m : Str)
  | buildAuthError
  | buildAssertionError
  | buildURIError
  | buildDocError
  | saveSecureKeysError
  | proofInvalid
  deriving DecidableEq

/-- `Display for DIDError` (thiserror attributes), core/src/types.rs:38-105. -/
def DIDError.display : DIDError → Str
  | .invalidDID => "invalid did".toList
  | .invalidPEM => "invalid pem".toList
  | .invalidKeysecure m => "invalid keysecure: ".toList ++ m
  | .generateMultiAddrError m => "error generate multiaddr: ".toList ++ m
  | .generateDocError m => "error generate DID DOC: ".toList ++ m
  | .generateJSONError m => "error generate JSON: ".toList ++ m
  | .generateJSONJCSError m => "error generate JCS: ".toList ++ m
  | .generateVCError m => "error generate VC: ".toList ++ m
  | .generateHashLinkError m => "error generate hashlink: ".toList ++ m
  | .buildProofError m => "error build proof: ".toList ++ m
  | .buildPayloadError m => "error build payload: ".toList ++ m
  | .validateError m => "validation error: ".toList ++ m
  | .decodeJSONError m => "error decode json value: ".toList ++ m
  | .invalidJSONBytes m => "unable to get JSON from bytes: ".toList ++ m
  | .decodePubKeyError m => "error decode public key: ".toList ++ m
  | .hashLinkError m => "error hashlink: ".toList ++ m
  | .parseURIError m => "error parse uri: ".toList ++ m
  | .buildAuthError => "error build auth".toList
  | .buildAssertionError => "error build assertion".toList
  | .buildURIError => "error build DID uri".toList
  | .buildDocError => "error build DID DOC".toList
  | .saveSecureKeysError => "unable to save key secure".toList
  | .proofInvalid => "proof: signature invalid".toList

/-- `JSONValue(String)`, core/src/types.rs:108-109. -/
structure JSONValue where
  text : Str
  deriving DecidableEq

namespace JSONValue

/-- `JSONValue::mime_type`, core/src/types.rs:112-114. -/
def mimeType (_ : JSONValue) : Str := JSON_MIME_TYPE

/-- `JSONValue::to_bytes`, core/src/types.rs:116-119. -/
def toBytes (v : JSONValue) : Bytes := utf8Encode v.text

/-- `Display for JSONValue` / `to_string()`, core/src/types.rs:134-141. -/
def toString' (v : JSONValue) : Str := v.text

/-- `From<String>` / `From<&str>`, core/src/types.rs:122-132. -/
def ofString (s : Str) : JSONValue := ⟨s⟩

/-- `TryFrom<Vec<u8>>`, core/src/types.rs:143-152. -/
def tryFrom (E : Env) (b : Bytes) : Except DIDError JSONValue :=
  match utf8Decode b with
  | some s => .ok ⟨s⟩
  | none => .error (.invalidJSONBytes (E.msg (.utf8 b)))

end JSONValue

end Verif
