import Verif.Model.Doc

/-
core/src/verifiable/proof/types.rs (purposes, errors, results) and core/src/verifiable/proof/mod.rs (`Proof`).
-/

namespace Verif

/-- core/src/verifiable/proof/types.rs:15 -/
def DEFAULT_PROOF_CRYPTOSUITE : Str := "eddsa-jcs-2022".toList
/-- core/src/verifiable/proof/types.rs:24 -/
def DEFAULT_PROOF_TYPE : Str := "DataIntegrityProof".toList

/-- `ProofPurpose`, core/src/verifiable/proof/types.rs:30-50. -/
inductive ProofPurpose where
  | assertionMethod
  | authentication
  | keyAgreement
  | capabilityDelegation
  | capabilityInvocation
  | unknown
  deriving DecidableEq

namespace ProofPurpose

/-- serde names of the variants (`rename` attributes), core/src/verifiable/proof/types.rs:33-49. -/
def serName : ProofPurpose → Str
  | .assertionMethod => "assertionMethod".toList
  | .authentication => "authentication".toList
  | .keyAgreement => "keyAgreement".toList
  | .capabilityDelegation => "capabilityDelegation".toList
  | .capabilityInvocation => "capabilityInvocation".toList
  | .unknown => "unknown".toList

/-- Variant lookup of the derived `Deserialize`, core/src/verifiable/proof/types.rs:30-50; any other name is an
error. -/
def ofSerName (s : Str) : Option ProofPurpose :=
  if s = "assertionMethod".toList then some .assertionMethod
  else if s = "authentication".toList then some .authentication
  else if s = "keyAgreement".toList then some .keyAgreement
  else if s = "capabilityDelegation".toList then some .capabilityDelegation
  else if s = "capabilityInvocation".toList then some .capabilityInvocation
  else if s = "unknown".toList then some .unknown
  else none

/-- `Display for ProofPurpose`, core/src/verifiable/proof/types.rs:52-63. -/
def display : ProofPurpose → Str
  | .assertionMethod => "assertionMethod".toList
  | .authentication => "authentication".toList
  | .keyAgreement => "keyAgreement".toList
  | .capabilityDelegation => "capabilityDelegation".toList
  | .capabilityInvocation => "capabilityInvocation".toList
  | .unknown => "unknown".toList

/-- `From<String> for ProofPurpose`, core/src/verifiable/proof/types.rs:65-76. -/
def ofString (s : Str) : ProofPurpose :=
  if s = "assertionMethod".toList then .assertionMethod
  else if s = "authentication".toList then .authentication
  else if s = "keyAgreement".toList then .keyAgreement
  else if s = "capabilityDelegation".toList then .capabilityDelegation
  else if s = "capabilityInvocation".toList then .capabilityInvocation
  else .unknown

/-- Derived `Deserialize` of an enum of unit variants by serde_json: the variant name as a string, or an object
whose only member is the variant name with value `null`. core/src/verifiable/proof/types.rs:30. -/
def dec (d : Nat) : Raw → Option ProofPurpose
  | .str s => (decStr s).bind ofSerName
  | .obj [(k, .null)] => if d ≤ 1 then none else (decStr k).bind ofSerName
  | _ => none

end ProofPurpose

/-- `ProofError`, core/src/verifiable/proof/types.rs:83-99. -/
inductive ProofError where
  | proofGenerationError (m : Str)
  | proofVerificationError (m : Str)
  | proofTransformationError (m : Str)
  | invalidDomainError (m : Str)
  | invalidChallengeError (m : Str)
  deriving DecidableEq

/-- `Display for ProofError`, core/src/verifiable/proof/types.rs:85-98. -/
def ProofError.display : ProofError → Str
  | .proofGenerationError m => "proof generation error: ".toList ++ m
  | .proofVerificationError m => "proof verification error: ".toList ++ m
  | .proofTransformationError m => "proof transformation error: ".toList ++ m
  | .invalidDomainError m => "invalid domain error: ".toList ++ m
  | .invalidChallengeError m => "invalid challenge error: ".toList ++ m

/-- `Proof`, core/src/verifiable/proof/mod.rs:36-66. -/
structure Proof where
  id : Str
  typ : Str
  proofPurpose : ProofPurpose
  proofValue : Str
  verificationMethod : Str
  created : Option Str
  expires : Option Str
  cryptosuite : Option Str
  deriving DecidableEq

namespace Proof

/-- `Default for Proof`, core/src/verifiable/proof/mod.rs:68-81. -/
def default : Proof :=
  { id := [], typ := [], proofPurpose := .unknown, proofValue := [], verificationMethod := [],
    created := none, expires := none, cryptosuite := none }

/-- `Proof::new`, core/src/verifiable/proof/mod.rs:84-95. -/
def new (id : Str) : Proof :=
  { id, typ := DEFAULT_PROOF_TYPE, proofPurpose := .unknown, proofValue := [], verificationMethod := [],
    created := none, expires := none, cryptosuite := some DEFAULT_PROOF_CRYPTOSUITE }

/-- `Proof::typ`, core/src/verifiable/proof/mod.rs:97-99. -/
def setTyp (p : Proof) (t : Str) : Proof := { p with typ := t }

/-- `Proof::set_signature_as_string`, core/src/verifiable/proof/mod.rs:101-103. -/
def setSignatureAsString (p : Proof) (sig : Str) : Proof := { p with proofValue := sig }

/-- `Proof::purpose`, core/src/verifiable/proof/mod.rs:105-107. -/
def setPurpose (p : Proof) (purpose : Str) : Proof := { p with proofPurpose := ProofPurpose.ofString purpose }

/-- `Proof::method`, core/src/verifiable/proof/mod.rs:109-111. -/
def setMethod (p : Proof) (m : Str) : Proof := { p with verificationMethod := m }

/-- `Proof::cryptosuite`, core/src/verifiable/proof/mod.rs:113-115. -/
def setCryptosuite (p : Proof) (s : Str) : Proof := { p with cryptosuite := some s }

/-- `Proof::created`, core/src/verifiable/proof/mod.rs:117-119. -/
def setCreated (p : Proof) (c : Str) : Proof := { p with created := some c }

/-- `Proof::expires`, core/src/verifiable/proof/mod.rs:121-123. -/
def setExpires (p : Proof) (e : Str) : Proof := { p with expires := some e }

/-- `Proof::remove_proof_value`, core/src/verifiable/proof/mod.rs:125-128. -/
def removeProofValue (p : Proof) : Proof := { p with proofValue := [] }

/-- `Validator for Proof`, core/src/verifiable/proof/mod.rs:138-151. -/
def validate (p : Proof) : Except DIDError Unit :=
  if p.typ.isEmpty then .error (.validateError "missing type".toList)
  else
    match p.proofPurpose with
    | .unknown => .error (.validateError "unknown proof purpose".toList)
    | _ => .ok ()

/-- `validate_type`, core/src/verifiable/proof/mod.rs:154-162. -/
def validateType (p : Proof) : Except ProofError Unit :=
  if p.typ ≠ DEFAULT_PROOF_TYPE then .error (.proofGenerationError "invalid proof type".toList) else .ok ()

/-- `validate_cryptosuite`, core/src/verifiable/proof/mod.rs:164-181. -/
def validateCryptosuite (p : Proof) : Except ProofError Unit :=
  match p.cryptosuite with
  | some suite =>
    if suite ≠ DEFAULT_PROOF_CRYPTOSUITE then .error (.proofGenerationError "invalid cryptosuite".toList)
    else .ok ()
  | none => .error (.proofGenerationError "missing cryptosuite".toList)

/-- `validate_created`, core/src/verifiable/proof/mod.rs:185-200. -/
def validateCreated (E : Env) (p : Proof) : Except ProofError Unit :=
  match p.created with
  | some created =>
    match E.parseDate created with
    | .ok _ => .ok ()
    | .error m => .error (.proofGenerationError m)
  | none => .error (.proofGenerationError "invalid created format".toList)

/-- `Serialize for Proof` (derive), core/src/verifiable/proof/mod.rs:34-66. -/
def toTree {N : Type} (p : Proof) : Json N :=
  .obj ([("id".toList, .str p.id), ("type".toList, .str p.typ),
         ("proofPurpose".toList, .str p.proofPurpose.serName), ("proofValue".toList, .str p.proofValue),
         ("verificationMethod".toList, .str p.verificationMethod)]
    ++ optMember "created".toList .str p.created
    ++ optMember "expires".toList .str p.expires
    ++ optMember "cryptosuite".toList .str p.cryptosuite)

/-- Serialised field names in declaration order, core/src/verifiable/proof/mod.rs:36-66. -/
def fieldNames : List Str :=
  ["id".toList, "type".toList, "proofPurpose".toList, "proofValue".toList, "verificationMethod".toList,
   "created".toList, "expires".toList, "cryptosuite".toList]

/-- `Deserialize for Proof` (derive), core/src/verifiable/proof/mod.rs:34-66. -/
def dec (d : Nat) (r : Raw) : Option Proof :=
  match structFields fieldNames d r with
  | none => none
  | some fs => do
    let id ← reqField fs "id".toList decString
    let typ ← reqField fs "type".toList decString
    let proofPurpose ← reqField fs "proofPurpose".toList (ProofPurpose.dec (d - 1))
    let proofValue ← reqField fs "proofValue".toList decString
    let verificationMethod ← reqField fs "verificationMethod".toList decString
    let created ← optField fs "created".toList decString
    let expires ← optField fs "expires".toList decString
    let cryptosuite ← optField fs "cryptosuite".toList decString
    some { id, typ, proofPurpose, proofValue, verificationMethod, created, expires, cryptosuite }

/-- `ToJCS for Proof`, core/src/verifiable/proof/mod.rs:203-209. `serde_jcs::to_string` cannot fail on this
type. -/
def toJcs (E : Env) (p : Proof) : Except DIDError Str := .ok (jcsText E p.toTree)

end Proof

/-- `Proofable` with its supertraits `ToJSON`, `ToJCS`, `Validator`,
core/src/verifiable/proof/types.rs:131-136, core/src/types.rs:156-171. -/
class Proofable (T : Type) where
  toJson : T → Except DIDError JSONValue
  toJcs : T → Except DIDError Str
  validate : T → Except DIDError Unit
  getProof : T → Option Proof
  removeProof : T → T
  setupProof : T → Proof → T
  parseJsonBytes : Bytes → Except ProofError T

/-- `ProofOptionsValidator`, core/src/verifiable/proof/types.rs:106-109. -/
class ProofOptionsValidator (O : Type) where
  validateType : O → Except ProofError Unit
  validateCryptosuite : O → Except ProofError Unit

/-- `ProofConfigValidator` (with its supertrait) and `ToJCS`, the bounds of `generate_proof_config`,
core/src/verifiable/proof/types.rs:117-119, core/src/verifiable/proof/config.rs:42-45. -/
class ProofConfigValidator (E : Env) (O : Type) extends ProofOptionsValidator O where
  validateCreated : O → Except ProofError Unit
  toJcs : O → Except DIDError Str

/-- `impl ProofOptionsValidator for Proof`, core/src/verifiable/proof/mod.rs:153-182. -/
@[reducible] instance : ProofOptionsValidator Proof := ⟨Proof.validateType, Proof.validateCryptosuite⟩

/-- `impl ProofConfigValidator for Proof`, core/src/verifiable/proof/mod.rs:184-201, and `impl ToJCS for Proof`,
core/src/verifiable/proof/mod.rs:203-209. -/
@[reducible] instance (E : Env) : ProofConfigValidator E Proof := ⟨Proof.validateCreated E, Proof.toJcs E⟩

/-- `CryptoSuiteVerificationResult`, core/src/verifiable/proof/types.rs:146-152. -/
structure VerificationResult (T : Type) where
  verified : Bool
  document : Option T

namespace VerificationResult

/-- core/src/verifiable/proof/types.rs:165-170 -/
def unverifiedResult {T : Type} : VerificationResult T := { verified := false, document := none }

/-- core/src/verifiable/proof/types.rs:172-177 -/
def verifiedResult {T : Type} (doc : T) : VerificationResult T := { verified := true, document := some doc }

/-- `CryptoSuiteVerificationResult::result`, core/src/verifiable/proof/types.rs:158-163 -/
def result {T : Type} (verified : Bool) (doc : T) : VerificationResult T :=
  match verified with
  | true => verifiedResult doc
  | false => unverifiedResult

end VerificationResult

/-- `CryptoSuiteBuilder<T>`, core/src/verifiable/proof/types.rs:180-196. -/
structure CryptoSuite (E : Env) (T : Type) where
  createProof : E.EdKP → T → Proof → Except ProofError Proof
  verifyProof : E.EdPub → T → Except ProofError (VerificationResult T)

end Verif
