import Verif.Props.Limits
import Verif.Props.Direct
import Verif.Props.Hashlink
import Verif.Props.Uri
import Verif.Model.Account
import Verif.Model.Did
import Verif.Model.Context
import Verif.Model.Secure

/-
C76: which error variants each operation of the library returns, exactly.
-/

namespace Verif.Spec
open Verif

/-- Name of the variant of a `DIDError` (core/src/types.rs:37-106). -/
def didVariant : DIDError → String
  | .invalidDID => "InvalidDID"
  | .invalidPEM => "InvalidPEM"
  | .invalidKeysecure _ => "InvalidKeysecure"
  | .generateMultiAddrError _ => "GenerateMultiAddrError"
  | .generateDocError _ => "GenerateDocError"
  | .generateJSONError _ => "GenerateJSONError"
  | .generateJSONJCSError _ => "GenerateJSONJCSError"
  | .generateVCError _ => "GenerateVCError"
  | .generateHashLinkError _ => "GenerateHashLinkError"
  | .buildProofError _ => "BuildProofError"
  | .buildPayloadError _ => "BuildPayloadError"
  | .validateError _ => "ValidateError"
  | .decodeJSONError _ => "DecodeJSONError"
  | .invalidJSONBytes _ => "InvalidJSONBytes"
  | .decodePubKeyError _ => "DecodePubKeyError"
  | .hashLinkError _ => "HashLinkError"
  | .parseURIError _ => "ParseURIError"
  | .buildAuthError => "BuildAuthError"
  | .buildAssertionError => "BuildAssertionError"
  | .buildURIError => "BuildURIError"
  | .buildDocError => "BuildDocError"
  | .saveSecureKeysError => "SaveSecureKeysError"
  | .proofInvalid => "ProofInvalid"

/-- Name of the variant of an `AccountError` (core/src/account/mod.rs:22-37). -/
def accountVariant : AccountError → String
  | .decodeError _ => "DecodeError"
  | .parseHexError _ => "ParseHexError"
  | .invalidPublicKey _ => "InvalidPublicKey"
  | .encodePEMError _ => "EncodePEMError"
  | .decodePEMError _ => "DecodePEMError"

/-- Name of the variant of a `ProofError` (core/src/verifiable/proof/types.rs:83-99). -/
def proofVariant : ProofError → String
  | .proofGenerationError _ => "ProofGenerationError"
  | .proofVerificationError _ => "ProofVerificationError"
  | .proofTransformationError _ => "ProofTransformationError"
  | .invalidDomainError _ => "InvalidDomainError"
  | .invalidChallengeError _ => "InvalidChallengeError"

/-- Name of the variant of an error of the key export (core/src/keys/secure.rs:11-27). -/
def secureVariant : KeySecureError → String
  | .buildKeySecureError => "BuildKeySecureError"
  | .buildIdentityPrivateKeysError => "BuildIdentityPrivateKeysError"
  | .buildJSONError => "BuildJSONError"
  | .storageError => "StorageError"
  | .decryptError _ => "DecryptError"

/-- Name of the variant of an error of verification pairs (core/src/keys/verification.rs:13-17). -/
def pairVariant : Verification.Error → String
  | .generatePrivKeyError => "GeneratePrivKeyError"
  | .decodePublicKeyError => "DecodePublicKeyError"
  | .generateSecureKeyError => "GenerateSecureKeyError"

/-- Name of the variant of an error of agreement pairs (core/src/keys/agreement.rs:14-17). -/
def agreementVariant : Agreement.Error → String
  | .decodePublicKeyError => "DecodePublicKeyError"

/-- `Fails op k`: in some environment whose hash functions have their lengths, a call of the operation named `op`
returns an error of the variant named `k`. One constructor for each operation of the library that returns a
`Result`. -/
inductive Fails : String → String → Prop
  | accountBuildPem {E : Env} {a : Account E} {e : AccountError} : E.HashLaws → a.buildPem = .error e →
      Fails "Account::build_pem" (accountVariant e)
  | accountFromPem {E : Env} {t : Str} {e : AccountError} : E.HashLaws → Account.fromPem E t = .error e →
      Fails "Account::from_pem" (accountVariant e)
  | accountFromKeysecure {E : Env} {pw : Str} {ks : KeySecure} {e : AccountError} : E.HashLaws →
      Account.fromKeysecure E pw ks = .error e → Fails "Account::from_keysecure" (accountVariant e)
  | didFromPem {E : Env} {t : Str} {e : DIDError} : E.HashLaws → DID.fromPem E t = .error e →
      Fails "DID::from_pem" (didVariant e)
  | didFromKeysecure {E : Env} {pw : Str} {ks : KeySecure} {e : DIDError} : E.HashLaws →
      DID.fromKeysecure E pw ks = .error e → Fails "DID::from_keysecure" (didVariant e)
  | didIdentity {E : Env} {d : DID E} {e : DIDError} : E.HashLaws → d.identity = .error e →
      Fails "DID::identity" (didVariant e)
  | buildUri {E : Env} {d : DID E} {p : Option Params} {e : DIDError} : E.HashLaws → d.buildUri p = .error e →
      Fails "DID::build_uri" (didVariant e)
  | parseUri {u : Str} {e : DIDError} : DID.parseUri u = some (.error e) → Fails "DID::parse_uri" (didVariant e)
  | multiaddr {E : Env} {p : Params} {e : DIDError} : E.HashLaws → p.parseMultiaddr E = .error e →
      Fails "Params::parse_multiaddr" (didVariant e)
  | identityAccount {E : Env} {i : Identity E} {e : DIDError} : E.HashLaws → i.account = .error e →
      Fails "Identity::account" (didVariant e)
  | privateKeys {E : Env} {i : Identity E} {r : PrivateKeysRandom} {pw : Str} {e : KeySecureError} : E.HashLaws →
      i.buildPrivateKeys r pw = .error e → Fails "Identity::build_private_keys" (secureVariant e)
  | edDecode {E : Env} {p : Verification.Pairs E} {e : Verification.Error} : E.HashLaws → p.decodePubKey = .error e →
      Fails "verification::Pairs::decode_pub_key" (pairVariant e)
  | edExport {E : Env} {p : Verification.Pairs E} {r : ExportRandom} {pw : Str} {e : KeySecureError} : E.HashLaws →
      p.buildKeysecure r pw = .error e → Fails "verification::Pairs::build_keysecure" (secureVariant e)
  | dhDecode {E : Env} {p : Agreement.Pairs E} {e : Agreement.Error} : E.HashLaws → p.decodePublicKey = .error e →
      Fails "agreement::Pairs::decode_public_key" (agreementVariant e)
  | dhExport {E : Env} {p : Agreement.Pairs E} {r : ExportRandom} {pw : Str} {e : KeySecureError} : E.HashLaws →
      p.buildKeysecure r pw = .error e → Fails "agreement::Pairs::build_keysecure" (secureVariant e)
  | decryptVerification {E : Env} {p : PrivateKeyPairs} {pw : Str} {e : KeySecureError} : E.HashLaws →
      p.decryptVerification E pw = .error e → Fails "PrivateKeyPairs::decrypt_verification" (secureVariant e)
  | decryptAgreement {E : Env} {p : PrivateKeyPairs} {pw : Str} {e : KeySecureError} : E.HashLaws →
      p.decryptAgreement E pw = .error e → Fails "PrivateKeyPairs::decrypt_agreement" (secureVariant e)
  | privateKeysJson {E : Env} {K : KeySecureCodec E} {p : IdentityPrivateKeyPairs} {e : DIDError} : E.HashLaws →
      p.toJson K = .error e → Fails "IdentityPrivateKeyPairs::to_json" (didVariant e)
  | primaryDecode {E : Env} {p : Primary} {e : DIDError} : E.HashLaws → p.decodePubKey E = .error e →
      Fails "Primary::decode_pub_key" (didVariant e)
  | docValidate {d : Doc} {e : DIDError} : d.validate = .error e → Fails "Doc::validate" (didVariant e)
  | docJson {E : Env} {d : Doc} {e : DIDError} : E.HashLaws → d.toJson E = .error e → Fails "Doc::to_json" (didVariant e)
  | contextJson {E : Env} {c : UserConnectionCredential} {e : DIDError} : E.HashLaws → c.toJson E = .error e →
      Fails "UserConnectionCredential::to_json" (didVariant e)
  | jsonBytes {E : Env} {b : Bytes} {e : DIDError} : E.HashLaws → JSONValue.tryFrom E b = .error e →
      Fails "JSONValue::try_from" (didVariant e)
  | vcValidate {E : Env} {v : VC E} {e : DIDError} : E.HashLaws → v.validate = .error e →
      Fails "VC::validate" (didVariant e)
  | vcJson {E : Env} {v : VC E} {e : DIDError} : E.HashLaws → v.toJson = .error e → Fails "VC::to_json" (didVariant e)
  | vcJcs {E : Env} {v : VC E} {e : DIDError} : E.HashLaws → v.toJcs = .error e → Fails "VC::to_jcs" (didVariant e)
  | vcParse {E : Env} {b : Bytes} {e : ProofError} : E.HashLaws → VC.parseJsonBytes E b = .error e →
      Fails "VC::parse_json_bytes" (proofVariant e)
  | vpValidate {E : Env} {v : VP E} {e : DIDError} : E.HashLaws → v.validate = .error e →
      Fails "VP::validate" (didVariant e)
  | vpJson {E : Env} {v : VP E} {e : DIDError} : E.HashLaws → v.toJson = .error e → Fails "VP::to_json" (didVariant e)
  | vpJcs {E : Env} {v : VP E} {e : DIDError} : E.HashLaws → v.toJcs = .error e → Fails "VP::to_jcs" (didVariant e)
  | vpParse {E : Env} {b : Bytes} {e : ProofError} : E.HashLaws → VP.parseJsonBytes E b = .error e →
      Fails "VP::parse_json_bytes" (proofVariant e)
  | hashVC {E : Env} {v : VC E} {e : DIDError} : E.HashLaws → Hashlink.generateFromJson E v.toJson = .error e →
      Fails "hashlink::generate_from_json(VC)" (didVariant e)
  | hashVP {E : Env} {v : VP E} {e : DIDError} : E.HashLaws → Hashlink.generateFromJson E v.toJson = .error e →
      Fails "hashlink::generate_from_json(VP)" (didVariant e)
  | hashDoc {E : Env} {d : Doc} {e : DIDError} : E.HashLaws → Hashlink.generateFromJson E (d.toJson E) = .error e →
      Fails "hashlink::generate_from_json(Doc)" (didVariant e)
  | checkVC {E : Env} {v : VC E} {l : Str} {e : DIDError} : E.HashLaws →
      Hashlink.verifyFromJson E v.toJson l = .error e → Fails "hashlink::verify_from_json(VC)" (didVariant e)
  | checkVP {E : Env} {v : VP E} {l : Str} {e : DIDError} : E.HashLaws →
      Hashlink.verifyFromJson E v.toJson l = .error e → Fails "hashlink::verify_from_json(VP)" (didVariant e)
  | checkDoc {E : Env} {d : Doc} {l : Str} {e : DIDError} : E.HashLaws →
      Hashlink.verifyFromJson E (d.toJson E) l = .error e → Fails "hashlink::verify_from_json(Doc)" (didVariant e)
  | proofValidate {p : Proof} {e : DIDError} : p.validate = .error e → Fails "Proof::validate" (didVariant e)
  | proofType {p : Proof} {e : ProofError} : p.validateType = .error e → Fails "Proof::validate_type" (proofVariant e)
  | proofSuite {p : Proof} {e : ProofError} : p.validateCryptosuite = .error e →
      Fails "Proof::validate_cryptosuite" (proofVariant e)
  | proofCreated {E : Env} {p : Proof} {e : ProofError} : E.HashLaws → p.validateCreated E = .error e →
      Fails "Proof::validate_created" (proofVariant e)
  | proofJcs {E : Env} {p : Proof} {e : DIDError} : E.HashLaws → p.toJcs E = .error e → Fails "Proof::to_jcs" (didVariant e)
  | config {E : Env} {p : Proof} {e : ProofError} : E.HashLaws → generateProofConfig E p = .error e →
      Fails "generate_proof_config" (proofVariant e)
  | transformVC {E : Env} {v : VC E} {p : Proof} {e : ProofError} : E.HashLaws → transformDocument v p = .error e →
      Fails "transform_document(VC)" (proofVariant e)
  | transformVP {E : Env} {v : VP E} {p : Proof} {e : ProofError} : E.HashLaws → transformDocument v p = .error e →
      Fails "transform_document(VP)" (proofVariant e)
  | hash {E : Env} {c : ProofConfig} {d : TransformedDoc} {e : ProofError} : E.HashLaws →
      generateHash (d.hash E) (c.hash E) = .error e → Fails "generate_hash" (proofVariant e)
  | signature {E : Env} {pub : E.EdPub} {h : HashedData} {s : ProofByte} {e : ProofError} : E.HashLaws →
      verifySignature E pub h s = .error e → Fails "verify_signature" (proofVariant e)
  | createVC {E : Env} {kp : E.EdKP} {v : VC E} {p : Proof} {e : ProofError} : E.HashLaws →
      (EddsaJcs2022.suite E (VC E)).createProof kp v p = .error e → Fails "EddsaJcs2022::create_proof(VC)" (proofVariant e)
  | createVP {E : Env} {kp : E.EdKP} {v : VP E} {p : Proof} {e : ProofError} : E.HashLaws →
      (EddsaJcs2022.suite E (VP E)).createProof kp v p = .error e → Fails "EddsaJcs2022::create_proof(VP)" (proofVariant e)
  | suiteVC {E : Env} {pub : E.EdPub} {v : VC E} {e : ProofError} : E.HashLaws →
      (EddsaJcs2022.suite E (VC E)).verifyProof pub v = .error e → Fails "EddsaJcs2022::verify_proof(VC)" (proofVariant e)
  | suiteVP {E : Env} {pub : E.EdPub} {v : VP E} {e : ProofError} : E.HashLaws →
      (EddsaJcs2022.suite E (VP E)).verifyProof pub v = .error e → Fails "EddsaJcs2022::verify_proof(VP)" (proofVariant e)
  | addVC {E : Env} {kp : E.EdKP} {v : VC E} {p : Proof} {e : ProofError} : E.HashLaws →
      (DataIntegrityEddsaJcs2022.build E (VC E)).addProof kp v p = .error e → Fails "Integrity::add_proof(VC)" (proofVariant e)
  | addVP {E : Env} {kp : E.EdKP} {v : VP E} {p : Proof} {e : ProofError} : E.HashLaws →
      (DataIntegrityEddsaJcs2022.build E (VP E)).addProof kp v p = .error e → Fails "Integrity::add_proof(VP)" (proofVariant e)
  | verifyVC {E : Env} {pub : E.EdPub} {b : Bytes} {p : ProofPurpose} {e : ProofError} : E.HashLaws →
      (DataIntegrityEddsaJcs2022.build E (VC E)).verifyProof pub b p = .error e →
      Fails "Integrity::verify_proof(VC)" (proofVariant e)
  | verifyVP {E : Env} {pub : E.EdPub} {b : Bytes} {p : ProofPurpose} {e : ProofError} : E.HashLaws →
      (DataIntegrityEddsaJcs2022.build E (VP E)).verifyProof pub b p = .error e →
      Fails "Integrity::verify_proof(VP)" (proofVariant e)

/-- The errors of each operation. Operations without an entry do not fail. -/
def errorTable : List (String × String) :=
  [("Account::build_pem", "EncodePEMError"),
   ("Account::from_pem", "DecodePEMError"),
   ("Account::from_keysecure", "DecodeError"),
   ("Account::from_keysecure", "DecodePEMError"),
   ("DID::from_pem", "InvalidPEM"),
   ("DID::from_keysecure", "InvalidKeysecure"),
   ("DID::build_uri", "BuildURIError"),
   ("Params::parse_multiaddr", "GenerateMultiAddrError"),
   ("Identity::account", "InvalidDID"),
   ("Identity::build_private_keys", "BuildIdentityPrivateKeysError"),
   ("verification::Pairs::decode_pub_key", "DecodePublicKeyError"),
   ("verification::Pairs::build_keysecure", "BuildKeySecureError"),
   ("agreement::Pairs::decode_public_key", "DecodePublicKeyError"),
   ("agreement::Pairs::build_keysecure", "BuildKeySecureError"),
   ("PrivateKeyPairs::decrypt_verification", "DecryptError"),
   ("PrivateKeyPairs::decrypt_agreement", "DecryptError"),
   ("Primary::decode_pub_key", "DecodePubKeyError"),
   ("Doc::validate", "ValidateError"),
   ("JSONValue::try_from", "InvalidJSONBytes"),
   ("VC::validate", "GenerateVCError"),
   ("VC::to_json", "GenerateVCError"),
   ("VC::to_jcs", "GenerateVCError"),
   ("VC::parse_json_bytes", "ProofGenerationError"),
   ("VP::validate", "GenerateJSONError"),
   ("VP::to_json", "GenerateJSONError"),
   ("VP::to_jcs", "GenerateJSONError"),
   ("VP::parse_json_bytes", "ProofGenerationError"),
   ("hashlink::generate_from_json(VC)", "GenerateVCError"),
   ("hashlink::generate_from_json(VP)", "GenerateJSONError"),
   ("hashlink::verify_from_json(VC)", "GenerateVCError"),
   ("hashlink::verify_from_json(VC)", "HashLinkError"),
   ("hashlink::verify_from_json(VP)", "GenerateJSONError"),
   ("hashlink::verify_from_json(VP)", "HashLinkError"),
   ("hashlink::verify_from_json(Doc)", "HashLinkError"),
   ("Proof::validate", "ValidateError"),
   ("Proof::validate_type", "ProofGenerationError"),
   ("Proof::validate_cryptosuite", "ProofGenerationError"),
   ("Proof::validate_created", "ProofGenerationError"),
   ("generate_proof_config", "ProofGenerationError"),
   ("transform_document(VC)", "ProofGenerationError"),
   ("transform_document(VP)", "ProofGenerationError"),
   ("verify_signature", "ProofVerificationError"),
   ("EddsaJcs2022::create_proof(VC)", "ProofGenerationError"),
   ("EddsaJcs2022::create_proof(VP)", "ProofGenerationError"),
   ("EddsaJcs2022::verify_proof(VC)", "ProofGenerationError"),
   ("EddsaJcs2022::verify_proof(VC)", "ProofVerificationError"),
   ("EddsaJcs2022::verify_proof(VP)", "ProofGenerationError"),
   ("EddsaJcs2022::verify_proof(VP)", "ProofVerificationError"),
   ("Integrity::add_proof(VC)", "ProofGenerationError"),
   ("Integrity::add_proof(VP)", "ProofGenerationError"),
   ("Integrity::verify_proof(VC)", "ProofGenerationError"),
   ("Integrity::verify_proof(VC)", "ProofVerificationError"),
   ("Integrity::verify_proof(VP)", "ProofGenerationError"),
   ("Integrity::verify_proof(VP)", "ProofVerificationError")]

/-- Variants of the error types that nothing returns. -/
def unusedVariants : List String :=
  ["GenerateDocError", "GenerateJSONJCSError", "GenerateHashLinkError", "BuildProofError", "BuildPayloadError",
   "DecodeJSONError", "ParseURIError", "BuildAuthError", "BuildAssertionError", "BuildDocError", "SaveSecureKeysError",
   "ProofInvalid", "ParseHexError", "InvalidPublicKey", "BuildJSONError", "StorageError", "GeneratePrivKeyError",
   "GenerateSecureKeyError", "ProofTransformationError", "InvalidDomainError", "InvalidChallengeError"]

end Verif.Spec

namespace Verif.Props
open Verif Spec

/-- Close a branch of a match on results: either it is no error or the error is visible. -/
local macro "variants" h:ident : tactic =>
  `(tactic| ((repeat' split at $h:ident) <;> first | (cases $h:ident; done) | (cases $h:ident; rfl)))

theorem fromPem_variant {E : Env} {t : Str} {e : AccountError} (h : Account.fromPem E t = .error e) :
    accountVariant e = "DecodePEMError" := by
  unfold Account.fromPem at h; variants h

theorem fromKeysecure_variant {E : Env} {pw : Str} {ks : KeySecure} {e : AccountError}
    (h : Account.fromKeysecure E pw ks = .error e) :
    accountVariant e = "DecodeError" ∨ accountVariant e = "DecodePEMError" := by
  unfold Account.fromKeysecure at h
  (repeat' split at h) <;> first | (exact .inr (fromPem_variant h)) | (cases h; exact .inl rfl)

theorem vc_variant {E : Env} {v : VC E} {e : DIDError} (h : v.validate = .error e) :
    didVariant e = "GenerateVCError" := by
  unfold VC.validate at h; variants h

theorem vp_variant {E : Env} {v : VP E} {e : DIDError} (h : v.validate = .error e) :
    didVariant e = "GenerateJSONError" := by
  unfold VP.validate at h; variants h

theorem vc_json_variant {E : Env} {v : VC E} {e : DIDError} (h : v.toJson = .error e) :
    didVariant e = "GenerateVCError" := by
  unfold VC.toJson at h
  split at h
  · cases h
  · rename_i h'; cases h; exact vc_variant h'

theorem vp_json_variant {E : Env} {v : VP E} {e : DIDError} (h : v.toJson = .error e) :
    didVariant e = "GenerateJSONError" := by
  unfold VP.toJson at h
  split at h
  · cases h
  · rename_i h'; cases h; exact vp_variant h'

theorem vc_jcs_variant {E : Env} {v : VC E} {e : DIDError} (h : v.toJcs = .error e) :
    didVariant e = "GenerateVCError" := by
  unfold VC.toJcs at h
  split at h
  · cases h
  · rename_i h'; cases h; exact vc_variant h'

theorem vp_jcs_variant {E : Env} {v : VP E} {e : DIDError} (h : v.toJcs = .error e) :
    didVariant e = "GenerateJSONError" := by
  unfold VP.toJcs at h
  split at h
  · cases h
  · rename_i h'; cases h; exact vp_variant h'

theorem generate_variant {E : Env} (H : E.HashLaws) {d : Except DIDError JSONValue} {e : DIDError}
    (h : Hashlink.generateFromJson E d = .error e) : d = .error e := by
  cases d with
  | error e' => cases h; rfl
  | ok j =>
    have h' : (match multihash32 0x1e (E.blake3 (utf8Encode j.toString')) with
      | none => .error (.generateHashLinkError (E.msg (.multihash (E.blake3 (utf8Encode j.toString')))))
      | some out => .ok (multibaseEncode58 out) : Except DIDError Str) = .error e := h
    have hm := multihash_spec H (utf8Encode j.toString')
    rw [hm] at h'
    cases h'

theorem check_variant {E : Env} {d : Except DIDError JSONValue} {l : Str} {e : DIDError}
    (h : Hashlink.verifyFromJson E d l = .error e) : d = .error e ∨ didVariant e = "HashLinkError" := by
  cases d with
  | error e' => cases h; exact .inl rfl
  | ok j =>
    right
    unfold Hashlink.verifyFromJson at h
    simp only [bind, Except.bind] at h
    variants h

theorem type_variant {p : Proof} {e : ProofError} (h : p.validateType = .error e) :
    proofVariant e = "ProofGenerationError" := by
  obtain ⟨m, rfl⟩ := validateType_error h; rfl

theorem suite_variant {p : Proof} {e : ProofError} (h : p.validateCryptosuite = .error e) :
    proofVariant e = "ProofGenerationError" := by
  obtain ⟨m, rfl⟩ := validateCryptosuite_error h; rfl

theorem created_variant {E : Env} {p : Proof} {e : ProofError} (h : p.validateCreated E = .error e) :
    proofVariant e = "ProofGenerationError" := by
  obtain ⟨m, rfl⟩ := validateCreated_error h; rfl

theorem config_variant {E : Env} {p : Proof} {e : ProofError} (h : generateProofConfig E p = .error e) :
    proofVariant e = "ProofGenerationError" := by
  rw [generateProofConfig_eq] at h
  split at h
  · rename_i h'; cases h; exact type_variant h'
  · split at h
    · rename_i h'; cases h; exact suite_variant h'
    · split at h
      · rename_i h'; cases h; exact created_variant h'
      · cases h

theorem transform_variant {T : Type} [Proofable T] {v : T} {p : Proof} {e : ProofError}
    (h : transformDocument v p = .error e) : proofVariant e = "ProofGenerationError" := by
  rw [transformDocument_eq] at h
  split at h
  · rename_i h'; cases h; exact type_variant h'
  · split at h
    · rename_i h'; cases h; exact suite_variant h'
    · split at h
      · cases h; rfl
      · cases h

theorem signature_variant {E : Env} {pub : E.EdPub} {d : HashedData} {s : ProofByte} {e : ProofError}
    (h : verifySignature E pub d s = .error e) : proofVariant e = "ProofVerificationError" := by
  unfold verifySignature at h; variants h

theorem create_variant {E : Env} {T : Type} [Proofable T] {kp : E.EdKP} {v : T} {p : Proof} {e : ProofError}
    (h : (EddsaJcs2022.suite E T).createProof kp v p = .error e) : proofVariant e = "ProofGenerationError" := by
  have h' : EddsaJcs2022.createProof E kp v p = .error e := h
  unfold EddsaJcs2022.createProof at h'
  split at h'
  · rename_i hc; cases h'; exact config_variant hc
  · split at h'
    · rename_i hc; cases h'; exact transform_variant hc
    · cases h'

theorem suiteVerify_variant {E : Env} {T : Type} [Proofable T] {pub : E.EdPub} {v : T} {e : ProofError}
    (h : (EddsaJcs2022.suite E T).verifyProof pub v = .error e) :
    proofVariant e = "ProofGenerationError" ∨ proofVariant e = "ProofVerificationError" := by
  have h' : EddsaJcs2022.verifyProof E pub v = .error e := h
  unfold EddsaJcs2022.verifyProof at h'
  simp only at h'
  split at h'
  · cases h'; exact .inr rfl
  · split at h'
    · cases h'; exact .inr rfl
    · split at h'
      · rename_i hc; cases h'; exact .inl (transform_variant hc)
      · split at h'
        · rename_i hc; cases h'; exact .inl (config_variant hc)
        · split at h'
          · rename_i hc; cases hc
          · split at h'
            · rename_i hc; cases h'; exact .inr (signature_variant hc)
            · cases h'

theorem add_variant {E : Env} {T : Type} [Proofable T] {kp : E.EdKP} {v : T} {p : Proof} {e : ProofError}
    (h : (DataIntegrityEddsaJcs2022.build E T).addProof kp v p = .error e) :
    proofVariant e = "ProofGenerationError" := by
  unfold Integrity.addProof at h
  split at h
  · rename_i hc; cases h; exact create_variant hc
  · split at h
    · cases h; rfl
    · cases h

theorem verify_variant {E : Env} {T : Type} [Proofable T] {pub : E.EdPub} {b : Bytes} {p : ProofPurpose}
    {e : ProofError}
    (hparse : ∀ e, (Proofable.parseJsonBytes b : Except ProofError T) = .error e →
      proofVariant e = "ProofGenerationError")
    (h : (DataIntegrityEddsaJcs2022.build E T).verifyProof pub b p = .error e) :
    proofVariant e = "ProofGenerationError" ∨ proofVariant e = "ProofVerificationError" := by
  unfold Integrity.verifyProof at h
  split at h
  · rename_i hc; cases h; exact .inl (hparse _ hc)
  · split at h
    · cases h; exact .inr rfl
    · split at h
      · cases h; exact .inr rfl
      · split at h
        · cases h; exact .inr rfl
        · exact suiteVerify_variant h

theorem vc_parse_variant {E : Env} {b : Bytes} {e : ProofError} (h : VC.parseJsonBytes E b = .error e) :
    proofVariant e = "ProofGenerationError" := by
  obtain ⟨m, rfl⟩ := vc_parse_error b e h; rfl

theorem vp_parse_variant {E : Env} {b : Bytes} {e : ProofError} (h : VP.parseJsonBytes E b = .error e) :
    proofVariant e = "ProofGenerationError" := by
  obtain ⟨m, rfl⟩ := vp_parse_error b e h; rfl

theorem primary_variant {E : Env} {p : Primary} {e : DIDError} (h : p.decodePubKey E = .error e) :
    didVariant e = "DecodePubKeyError" := by
  unfold Primary.decodePubKey at h
  split at h
  · split at h
    · cases h
    · rename_i h'; cases h
      unfold Primary.decodePubKeyVerification at h'; variants h'
  · split at h
    · split at h
      · cases h
      · rename_i h'; cases h
        unfold Primary.decodePubKeyAgreement at h'; variants h'
    · cases h; rfl

theorem slot_variant {E : Env} {rv ra : ExportRandom} {pw : Str} {m : Option (VerificationMethod E)}
    {e : KeySecureError} (h : Identity.buildSlot rv ra pw m = .error e) :
    secureVariant e = "BuildIdentityPrivateKeysError" := by
  unfold Identity.buildSlot at h; variants h

/-- Every error an operation returns is in the table. -/
theorem C76_sound {op k : String} (h : Fails op k) : (op, k) ∈ errorTable := by
  have mem : ∀ {op k k' : String}, k = k' → (op, k') ∈ errorTable → (op, k) ∈ errorTable := by
    rintro _ _ _ rfl h; exact h
  have mem2 : ∀ {op k k' k'' : String}, k = k' ∨ k = k'' → (op, k') ∈ errorTable → (op, k'') ∈ errorTable →
      (op, k) ∈ errorTable := by
    rintro _ _ _ _ (rfl | rfl) h h'
    · exact h
    · exact h'
  cases h with
  | accountBuildPem _ h => exact mem (k' := "EncodePEMError") (by unfold Account.buildPem at h; variants h) (by decide)
  | accountFromPem _ h => exact mem (fromPem_variant h) (by decide)
  | accountFromKeysecure _ h => exact mem2 (fromKeysecure_variant h) (by decide) (by decide)
  | didFromPem _ h => exact mem (k' := "InvalidPEM") (by unfold DID.fromPem at h; variants h) (by decide)
  | didFromKeysecure _ h =>
    exact mem (k' := "InvalidKeysecure") (by unfold DID.fromKeysecure at h; variants h) (by decide)
  | didIdentity _ h => cases h
  | buildUri _ h =>
    refine mem (k' := "BuildURIError") ?_ (by decide)
    unfold DID.buildUri at h
    simp only [DID.identity] at h
    variants h
  | @parseUri u e h =>
    exfalso
    unfold DID.parseUri at h
    simp only at h
    split at h
    · rename_i hs
      cases hu : splitOn '?' u with
      | nil => exact splitOn_ne_nil _ _ hu
      | cons a l => rw [hu] at hs; cases hs
    · (repeat' split at h) <;> cases h
  | multiaddr _ h =>
    exact mem (k' := "GenerateMultiAddrError") (by unfold Params.parseMultiaddr at h; variants h) (by decide)
  | identityAccount _ h =>
    exact mem (k' := "InvalidDID") (by unfold Identity.account at h; simp only at h; variants h) (by decide)
  | privateKeys _ h =>
    refine mem (k' := "BuildIdentityPrivateKeysError") ?_ (by decide)
    unfold Identity.buildPrivateKeys at h
    split at h
    · rename_i h'; cases h; exact slot_variant h'
    · split at h
      · rename_i h'; cases h; exact slot_variant h'
      · cases h
  | edDecode _ h =>
    exact mem (k' := "DecodePublicKeyError") (by unfold Verification.Pairs.decodePubKey at h; variants h) (by decide)
  | edExport _ h =>
    exact mem (k' := "BuildKeySecureError") (by unfold Verification.Pairs.buildKeysecure at h; variants h) (by decide)
  | dhDecode _ h =>
    exact mem (k' := "DecodePublicKeyError") (by unfold Agreement.Pairs.decodePublicKey at h; variants h) (by decide)
  | dhExport _ h =>
    exact mem (k' := "BuildKeySecureError") (by unfold Agreement.Pairs.buildKeysecure at h; variants h) (by decide)
  | decryptVerification _ h =>
    exact mem (k' := "DecryptError") (by unfold PrivateKeyPairs.decryptVerification at h; variants h) (by decide)
  | decryptAgreement _ h =>
    exact mem (k' := "DecryptError") (by unfold PrivateKeyPairs.decryptAgreement at h; variants h) (by decide)
  | privateKeysJson _ h => cases h
  | primaryDecode _ h => exact mem (primary_variant h) (by decide)
  | docValidate h => exact mem (k' := "ValidateError") (by unfold Doc.validate at h; variants h) (by decide)
  | docJson _ h => cases h
  | contextJson _ h => cases h
  | jsonBytes _ h =>
    exact mem (k' := "InvalidJSONBytes") (by unfold JSONValue.tryFrom at h; variants h) (by decide)
  | vcValidate _ h => exact mem (vc_variant h) (by decide)
  | vcJson _ h => exact mem (vc_json_variant h) (by decide)
  | vcJcs _ h => exact mem (vc_jcs_variant h) (by decide)
  | vcParse _ h => exact mem (vc_parse_variant h) (by decide)
  | vpValidate _ h => exact mem (vp_variant h) (by decide)
  | vpJson _ h => exact mem (vp_json_variant h) (by decide)
  | vpJcs _ h => exact mem (vp_jcs_variant h) (by decide)
  | vpParse _ h => exact mem (vp_parse_variant h) (by decide)
  | hashVC H h => exact mem (vc_json_variant (generate_variant H h)) (by decide)
  | hashVP H h => exact mem (vp_json_variant (generate_variant H h)) (by decide)
  | hashDoc H h => cases generate_variant H h
  | checkVC _ h =>
    exact mem2 ((check_variant h).imp (fun h => vc_json_variant h) id) (by decide) (by decide)
  | checkVP _ h =>
    exact mem2 ((check_variant h).imp (fun h => vp_json_variant h) id) (by decide) (by decide)
  | checkDoc _ h =>
    rcases check_variant h with h | h
    · cases h
    · exact mem h (by decide)
  | proofValidate h => exact mem (k' := "ValidateError") (by unfold Proof.validate at h; variants h) (by decide)
  | proofType h => exact mem (type_variant h) (by decide)
  | proofSuite h => exact mem (suite_variant h) (by decide)
  | proofCreated _ h => exact mem (created_variant h) (by decide)
  | proofJcs _ h => cases h
  | config _ h => exact mem (config_variant h) (by decide)
  | transformVC _ h => exact mem (transform_variant h) (by decide)
  | transformVP _ h => exact mem (transform_variant h) (by decide)
  | hash _ h => cases h
  | signature _ h => exact mem (signature_variant h) (by decide)
  | createVC _ h => exact mem (create_variant h) (by decide)
  | createVP _ h => exact mem (create_variant h) (by decide)
  | suiteVC _ h => exact mem2 (suiteVerify_variant h) (by decide) (by decide)
  | suiteVP _ h => exact mem2 (suiteVerify_variant h) (by decide) (by decide)
  | addVC _ h => exact mem (add_variant h) (by decide)
  | addVP _ h => exact mem (add_variant h) (by decide)
  | verifyVC _ h => exact mem2 (verify_variant (fun _ h => vc_parse_variant h) h) (by decide) (by decide)
  | verifyVP _ h => exact mem2 (verify_variant (fun _ h => vp_parse_variant h) h) (by decide) (by decide)

/-- An environment in which the calls into dependencies that can fail do fail. -/
def broken : Env :=
  { Toy.env with
    edPem := fun _ => .error [], edOfPem := fun _ => .error [], kdf := fun _ _ _ => .error [],
    edVerify := fun _ _ _ => .error [], parseDate := fun _ => .error [], parseMultiaddr := fun _ => .error [] }

theorem broken_hashLaws : broken.HashLaws := ⟨Toy.digest_len 32, Toy.digest_len 48, Toy.digest_len 32⟩

def someRandom : ExportRandom := ⟨[], List.replicate 24 0, by decide⟩

/-- A stored key that opens to the empty text, which is no PEM. -/
def notPem : KeySecure :=
  { cipherText := hexEncode (0xff :: List.replicate 24 0), nonce := hexEncode (List.replicate 24 0),
    kdfParams := { mCost := 8, pCost := 1, tCost := 1, outputLen := 32 }, salt := [] }

theorem notPem_fails : Account.fromKeysecure Toy.env [] notPem = .error (.decodePEMError "bad pem".toList) := by
  have h1 : hexDecode notPem.cipherText = some (0xff :: List.replicate 24 0) := hexDecode_encode _
  have h2 : hexDecode notPem.nonce = some (List.replicate 24 0) := hexDecode_encode _
  unfold Account.fromKeysecure
  rw [h1, h2]
  rfl

theorem notPem_broken : Account.fromKeysecure broken [] notPem = .error (.decodeError []) := by
  have h1 : hexDecode notPem.cipherText = some (0xff :: List.replicate 24 0) := hexDecode_encode _
  unfold Account.fromKeysecure
  rw [h1]
  rfl

theorem notPem_decrypt : notPem.decrypt broken [] = .error [] := by
  have h1 : hexDecode notPem.cipherText = some (0xff :: List.replicate 24 0) := hexDecode_encode _
  unfold KeySecure.decrypt
  rw [h1]
  rfl

theorem notPem_verification :
    PrivateKeyPairs.decryptVerification broken ⟨notPem, notPem⟩ [] = .error (.decryptError []) := by
  unfold PrivateKeyPairs.decryptVerification
  simp only [notPem_decrypt]

theorem notPem_agreement :
    PrivateKeyPairs.decryptAgreement broken ⟨notPem, notPem⟩ [] = .error (.decryptError []) := by
  unfold PrivateKeyPairs.decryptAgreement
  simp only [notPem_decrypt]

/-- Every entry of the table occurs. -/
theorem C76_complete {op k : String} (h : (op, k) ∈ errorTable) : Fails op k := by
  have H := broken_hashLaws
  have HT := Toy.hashLaws
  have bad : (Proof.default).validateType = .error (.proofGenerationError "invalid proof type".toList) := by decide
  simp only [errorTable, List.mem_cons, Prod.mk.injEq, List.not_mem_nil, or_false] at h
  rcases h with ⟨rfl, rfl⟩ | h
  · exact .accountBuildPem (a := ⟨(7 : UInt8)⟩) (e := .encodePEMError []) H rfl
  rcases h with ⟨rfl, rfl⟩ | h
  · exact .accountFromPem (t := []) (e := .decodePEMError []) H rfl
  rcases h with ⟨rfl, rfl⟩ | h
  · exact .accountFromKeysecure (pw := []) (ks := notPem) (e := .decodeError []) H notPem_broken
  rcases h with ⟨rfl, rfl⟩ | h
  · exact .accountFromKeysecure HT notPem_fails
  rcases h with ⟨rfl, rfl⟩ | h
  · exact .didFromPem (t := []) (e := .invalidPEM) H rfl
  rcases h with ⟨rfl, rfl⟩ | h
  · exact .didFromKeysecure (e := .invalidKeysecure _) HT (by unfold DID.fromKeysecure; rw [notPem_fails])
  rcases h with ⟨rfl, rfl⟩ | h
  · exact .buildUri (d := ⟨⟨(7 : UInt8)⟩⟩) (p := some {}) (e := .buildURIError) H rfl
  rcases h with ⟨rfl, rfl⟩ | h
  · exact .multiaddr (p := { address := some [] }) (e := .generateMultiAddrError []) H rfl
  rcases h with ⟨rfl, rfl⟩ | h
  · exact .identityAccount (i := Identity.new broken []) (e := .invalidDID) H rfl
  rcases h with ⟨rfl, rfl⟩ | h
  · exact .privateKeys (i := (Identity.new broken []).buildAuthMethod ⟨(7 : UInt8), (7 : UInt8)⟩)
      (r := ⟨someRandom, someRandom, someRandom, someRandom⟩) (pw := []) (e := .buildIdentityPrivateKeysError) H rfl
  rcases h with ⟨rfl, rfl⟩ | h
  · exact .edDecode (p := ⟨[], (7 : UInt8)⟩) (e := .decodePublicKeyError) H rfl
  rcases h with ⟨rfl, rfl⟩ | h
  · exact .edExport (p := ⟨[], (7 : UInt8)⟩) (r := someRandom) (pw := []) (e := .buildKeySecureError) H rfl
  rcases h with ⟨rfl, rfl⟩ | h
  · exact .dhDecode (p := ⟨[], (7 : UInt8)⟩) (e := .decodePublicKeyError) H rfl
  rcases h with ⟨rfl, rfl⟩ | h
  · exact .dhExport (p := ⟨[], (7 : UInt8)⟩) (r := someRandom) (pw := []) (e := .buildKeySecureError) H rfl
  rcases h with ⟨rfl, rfl⟩ | h
  · exact .decryptVerification (p := ⟨notPem, notPem⟩) (pw := []) (e := .decryptError []) H notPem_verification
  rcases h with ⟨rfl, rfl⟩ | h
  · exact .decryptAgreement (p := ⟨notPem, notPem⟩) (pw := []) (e := .decryptError []) H notPem_agreement
  rcases h with ⟨rfl, rfl⟩ | h
  · exact .primaryDecode (p := ⟨[], [], [], []⟩) (e := .decodePubKeyError _) H rfl
  rcases h with ⟨rfl, rfl⟩ | h
  · exact .docValidate (d := Doc.generate []) (e := .validateError _) rfl
  rcases h with ⟨rfl, rfl⟩ | h
  · exact .jsonBytes (b := [0xff]) (e := .invalidJSONBytes _) H rfl
  rcases h with ⟨rfl, rfl⟩ | h
  · exact .vcValidate (v := VC.new broken [] []) (e := .generateVCError _) H rfl
  rcases h with ⟨rfl, rfl⟩ | h
  · exact .vcJson (v := VC.new broken [] []) (e := .generateVCError _) H rfl
  rcases h with ⟨rfl, rfl⟩ | h
  · exact .vcJcs (v := VC.new broken [] []) (e := .generateVCError _) H rfl
  rcases h with ⟨rfl, rfl⟩ | h
  · exact .vcParse (b := []) (e := .proofGenerationError _) H rfl
  rcases h with ⟨rfl, rfl⟩ | h
  · exact .vpValidate (v := VP.new broken) (e := .generateJSONError _) H rfl
  rcases h with ⟨rfl, rfl⟩ | h
  · exact .vpJson (v := VP.new broken) (e := .generateJSONError _) H rfl
  rcases h with ⟨rfl, rfl⟩ | h
  · exact .vpJcs (v := VP.new broken) (e := .generateJSONError _) H rfl
  rcases h with ⟨rfl, rfl⟩ | h
  · exact .vpParse (b := []) (e := .proofGenerationError _) H rfl
  rcases h with ⟨rfl, rfl⟩ | h
  · exact .hashVC (v := VC.new broken [] []) (e := .generateVCError _) H rfl
  rcases h with ⟨rfl, rfl⟩ | h
  · exact .hashVP (v := VP.new broken) (e := .generateJSONError _) H rfl
  rcases h with ⟨rfl, rfl⟩ | h
  · exact .checkVC (v := VC.new broken [] []) (l := []) (e := .generateVCError _) H rfl
  rcases h with ⟨rfl, rfl⟩ | h
  · exact .checkVC (v := toyVC) (l := []) (e := .hashLinkError _) HT rfl
  rcases h with ⟨rfl, rfl⟩ | h
  · exact .checkVP (v := VP.new broken) (l := []) (e := .generateJSONError _) H rfl
  rcases h with ⟨rfl, rfl⟩ | h
  · exact .checkVP (v := toyVP) (l := []) (e := .hashLinkError _) HT rfl
  rcases h with ⟨rfl, rfl⟩ | h
  · exact .checkDoc (d := Doc.generate []) (l := []) (e := .hashLinkError _) HT rfl
  rcases h with ⟨rfl, rfl⟩ | h
  · exact .proofValidate (p := Proof.default) (e := .validateError _) rfl
  rcases h with ⟨rfl, rfl⟩ | h
  · exact .proofType bad
  rcases h with ⟨rfl, rfl⟩ | h
  · exact .proofSuite (p := Proof.default) (e := .proofGenerationError _) rfl
  rcases h with ⟨rfl, rfl⟩ | h
  · exact .proofCreated (p := Proof.default) (e := .proofGenerationError _) H rfl
  rcases h with ⟨rfl, rfl⟩ | h
  · exact .config (p := Proof.default) (e := .proofGenerationError _) H (by rw [generateProofConfig_eq, bad])
  rcases h with ⟨rfl, rfl⟩ | h
  · exact .transformVC (v := toyVC) (p := Proof.default) (e := .proofGenerationError _) HT
      (by rw [transformDocument_eq, bad])
  rcases h with ⟨rfl, rfl⟩ | h
  · exact .transformVP (v := toyVP) (p := Proof.default) (e := .proofGenerationError _) HT
      (by rw [transformDocument_eq, bad])
  rcases h with ⟨rfl, rfl⟩ | h
  · exact .signature (pub := (7 : UInt8)) (h := ⟨[]⟩) (s := ⟨[]⟩) (e := .proofVerificationError []) H rfl
  rcases h with ⟨rfl, rfl⟩ | h
  · exact .createVC (kp := (7 : UInt8)) (v := toyVC) (p := Proof.default) (e := .proofGenerationError _) HT rfl
  rcases h with ⟨rfl, rfl⟩ | h
  · exact .createVP (kp := (7 : UInt8)) (v := toyVP) (p := Proof.default) (e := .proofGenerationError _) HT rfl
  rcases h with ⟨rfl, rfl⟩ | h
  · exact .suiteVC (pub := (7 : UInt8)) (v := toyVC.setProof { Proof.default with proofValue := ['z'] })
      (e := .proofGenerationError _) HT rfl
  rcases h with ⟨rfl, rfl⟩ | h
  · exact .suiteVC (pub := (7 : UInt8)) (v := toyVC) (e := .proofVerificationError _) HT rfl
  rcases h with ⟨rfl, rfl⟩ | h
  · exact .suiteVP (pub := (7 : UInt8)) (v := toyVP.addProof { Proof.default with proofValue := ['z'] })
      (e := .proofGenerationError _) HT rfl
  rcases h with ⟨rfl, rfl⟩ | h
  · exact .suiteVP (pub := (7 : UInt8)) (v := toyVP) (e := .proofVerificationError _) HT rfl
  rcases h with ⟨rfl, rfl⟩ | h
  · exact .addVC (kp := (7 : UInt8)) (v := toyVC) (p := Proof.default) (e := .proofGenerationError _) HT rfl
  rcases h with ⟨rfl, rfl⟩ | h
  · exact .addVP (kp := (7 : UInt8)) (v := toyVP) (p := Proof.default) (e := .proofGenerationError _) HT rfl
  rcases h with ⟨rfl, rfl⟩ | h
  · exact .verifyVC (pub := (7 : UInt8)) (b := []) (p := .authentication) (e := .proofGenerationError _) HT rfl
  rcases h with ⟨rfl, rfl⟩ | h
  · obtain ⟨t, h1, h2⟩ := C26_json_roundtrip Toy.numLaws toyVC toyVC_complete
      (Toy.survives _) (by simp [toyVC, toySubject, Json.depth, Json.depthMembers])
    obtain ⟨m, h⟩ := (C44_vc Toy.jcsLaws (7 : UInt8) t.toBytes .assertionMethod).2.2.mpr ⟨_, h2, .inl rfl⟩
    exact .verifyVC HT h
  rcases h with ⟨rfl, rfl⟩ | ⟨rfl, rfl⟩
  · exact .verifyVP (pub := (7 : UInt8)) (b := []) (p := .authentication) (e := .proofGenerationError _) HT rfl
  · obtain ⟨t, h1, h2⟩ := C27_json_roundtrip Toy.numLaws toyVP toyVP_complete (fun _ _ => Toy.survives _)
      (fun _ hc => by revert hc; simp [toyVP]; rintro rfl; simp [toyVC, toySubject, Json.depth, Json.depthMembers])
    obtain ⟨m, h⟩ := (C44_vp Toy.jcsLaws (7 : UInt8) t.toBytes .assertionMethod).2.2.mpr ⟨_, h2, .inl rfl⟩
    exact .verifyVP HT h

/-- C76: an operation returns an error of a variant exactly if the table says so; and the error variants listed as
unused, among them those for a wrong challenge or domain of a proof, are returned by no operation. -/
theorem C76_errors (op k : String) :
    (Fails op k ↔ (op, k) ∈ errorTable) ∧ (k ∈ unusedVariants → ¬ Fails op k) := by
  refine ⟨⟨C76_sound, C76_complete⟩, ?_⟩
  intro hk h
  have hm := C76_sound h
  have hall : ∀ k ∈ unusedVariants, ∀ x ∈ errorTable, x.2 ≠ k := by decide +kernel
  exact hall k hk _ hm rfl

/-- `C76_sound`, `C76_complete`: an error that occurs, one that is never returned there, and one never returned at all. -/
example : Fails "Integrity::verify_proof(VC)" "ProofVerificationError" ∧
    ¬ Fails "Integrity::verify_proof(VC)" "InvalidChallengeError" ∧ ¬ Fails "DID::parse_uri" "ParseURIError" :=
  ⟨(C76_errors ..).1.mpr (by decide), (C76_errors ..).2 (by decide), (C76_errors ..).2 (by decide)⟩

/-- C76, the lists are exhaustive: each variant of the six error types is returned by an operation or listed as
unused, never both. -/
theorem C76_variants :
    (∀ e : DIDError, (∃ op, Fails op (didVariant e)) ↔ didVariant e ∉ unusedVariants) ∧
    (∀ e : AccountError, (∃ op, Fails op (accountVariant e)) ↔ accountVariant e ∉ unusedVariants) ∧
    (∀ e : ProofError, (∃ op, Fails op (proofVariant e)) ↔ proofVariant e ∉ unusedVariants) ∧
    (∀ e : KeySecureError, (∃ op, Fails op (secureVariant e)) ↔ secureVariant e ∉ unusedVariants) ∧
    (∀ e : Verification.Error, (∃ op, Fails op (pairVariant e)) ↔ pairVariant e ∉ unusedVariants) ∧
    ∀ e : Agreement.Error, (∃ op, Fails op (agreementVariant e)) ↔ agreementVariant e ∉ unusedVariants := by
  have key : ∀ k : String, (∃ op, Fails op k) ↔ k ∈ errorTable.map Prod.snd := by
    intro k
    simp only [(C76_errors _ _).1, List.mem_map, Prod.exists, exists_eq_right]
  simp only [key]
  refine ⟨?_, ?_, ?_, ?_, ?_, ?_⟩ <;> intro e <;> cases e <;>
    simp only [didVariant, accountVariant, proofVariant, secureVariant, pairVariant, agreementVariant] <;> decide +kernel

end Verif.Props
