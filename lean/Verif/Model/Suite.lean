import Verif.Model.Proof

/-
core/src/verifiable/proof/{config,transform,hash,serialize,verifier,eddsa,integrity}.rs: the `eddsa-jcs-2022`
cryptosuite and the data integrity algorithms on top of it.
-/

namespace Verif

/-- `ProofConfig(String)`, core/src/verifiable/proof/config.rs:13. -/
structure ProofConfig where
  text : Str

/-- `Hasher for ProofConfig`, core/src/verifiable/proof/config.rs:27-35. -/
def ProofConfig.hash (E : Env) (c : ProofConfig) : Except ProofError Bytes := .ok (E.sha256 (utf8Encode c.text))

/-- `generate_proof_config`, core/src/verifiable/proof/config.rs:42-61. -/
def generateProofConfig (E : Env) {O : Type} [ProofConfigValidator E O] (options : O) :
    Except ProofError ProofConfig :=
  match ProofOptionsValidator.validateType options with
  | .error e => .error e
  | .ok _ =>
    match ProofOptionsValidator.validateCryptosuite options with
    | .error e => .error e
    | .ok _ =>
      match ProofConfigValidator.validateCreated E options with
      | .error e => .error e
      | .ok _ =>
        match ProofConfigValidator.toJcs E options with
        | .error e => .error (.proofGenerationError e.display)
        | .ok t => .ok ⟨t⟩

/-- `TransformedDoc(String)`, core/src/verifiable/proof/transform.rs:9. -/
structure TransformedDoc where
  text : Str

/-- `Hasher for TransformedDoc`, core/src/verifiable/proof/transform.rs:23-31. -/
def TransformedDoc.hash (E : Env) (c : TransformedDoc) : Except ProofError Bytes :=
  .ok (E.sha256 (utf8Encode c.text))

/-- `transform_document`, core/src/verifiable/proof/transform.rs:39-55. -/
def transformDocument {T O : Type} [Proofable T] [ProofOptionsValidator O] (doc : T) (opts : O) :
    Except ProofError TransformedDoc :=
  match ProofOptionsValidator.validateType opts with
  | .error e => .error e
  | .ok _ =>
    match ProofOptionsValidator.validateCryptosuite opts with
    | .error e => .error e
    | .ok _ =>
      match Proofable.toJcs doc with
      | .error e => .error (.proofGenerationError e.display)
      | .ok t => .ok ⟨t⟩

/-- `HashedData(Vec<u8>)`, core/src/verifiable/proof/hash.rs:6. -/
structure HashedData where
  bytes : Bytes

/-- `generate_hash`, core/src/verifiable/proof/hash.rs:33-50. The two `impl Hasher` arguments are used only
through `hash()`, whose results are the arguments here. -/
def generateHash (transformedDoc proofConfig : Except ProofError Bytes) : Except ProofError HashedData :=
  match transformedDoc with
  | .error e => .error (.proofGenerationError e.display)
  | .ok documentHash =>
    match proofConfig with
    | .error e => .error (.proofGenerationError e.display)
    | .ok configHash => .ok ⟨configHash ++ documentHash⟩

/-- `ProofByte(Vec<u8>)`, core/src/verifiable/proof/serialize.rs:30. -/
structure ProofByte where
  bytes : Bytes

/-- `ProofByte::encode().get()`, core/src/verifiable/proof/serialize.rs:37-40,16-18. -/
def ProofByte.encode (b : ProofByte) : Str := multibaseEncode58 b.bytes

/-- `ProofByte::to_hex`, core/src/verifiable/proof/serialize.rs:43-46. -/
def ProofByte.toHex (b : ProofByte) : Str := hexEncode b.bytes

/-- `serialize_hashed_data`, core/src/verifiable/proof/serialize.rs:69-73. -/
def serializeHashedData (E : Env) (hashed : HashedData) (kp : E.EdKP) : ProofByte := ⟨E.edSign kp hashed.bytes⟩

/-- `verify_signature`, core/src/verifiable/proof/verifier.rs:7-17. -/
def verifySignature (E : Env) (pubkey : E.EdPub) (hashed : HashedData) (signature : ProofByte) :
    Except ProofError Bool :=
  match E.edVerify pubkey hashed.bytes signature.toHex with
  | .error m => .error (.proofVerificationError m)
  | .ok b => .ok b

namespace EddsaJcs2022
variable {T : Type} [Proofable T]

/-- `create_proof`, core/src/verifiable/proof/eddsa.rs:37-68. -/
def createProof (E : Env) (kp : E.EdKP) (unsecuredDocument : T) (opts : Proof) : Except ProofError Proof :=
  match generateProofConfig E opts with
  | .error e => .error e
  | .ok proofConfig =>
    match transformDocument unsecuredDocument opts with
    | .error e => .error e
    | .ok transformedData =>
      match generateHash (transformedData.hash E) (proofConfig.hash E) with
      | .error e => .error e
      | .ok hashedData =>
        .ok (opts.setSignatureAsString (serializeHashedData E hashedData kp).encode)

/-- `verify_proof`, core/src/verifiable/proof/eddsa.rs:71-112. -/
def verifyProof (E : Env) (pubkey : E.EdPub) (securedDocument : T) :
    Except ProofError (VerificationResult T) :=
  let unsecuredDoc := Proofable.removeProof securedDocument
  match Proofable.getProof securedDocument with
  | none => .error (.proofVerificationError "missing proof from given document".toList)
  | some proofDoc =>
    let proofOptions := proofDoc.removeProofValue
    match E.mbDecode proofDoc.proofValue with
    | none => .error (.proofVerificationError (E.msg (.multibase proofDoc.proofValue)))
    | some (_, proofBytes) =>
      match transformDocument unsecuredDoc proofOptions with
      | .error e => .error e
      | .ok transformedData =>
        match generateProofConfig E proofOptions with
        | .error e => .error e
        | .ok proofConfig =>
          match generateHash (transformedData.hash E) (proofConfig.hash E) with
          | .error e => .error e
          | .ok hashedData =>
            match verifySignature E pubkey hashedData ⟨proofBytes⟩ with
            | .error e => .error e
            | .ok isVerified => .ok (VerificationResult.result isVerified unsecuredDoc)

/-- `impl CryptoSuiteBuilder<T> for EddsaJcs2022`, core/src/verifiable/proof/eddsa.rs:32-113. -/
def suite (E : Env) (T : Type) [Proofable T] : CryptoSuite E T :=
  { createProof := createProof E, verifyProof := verifyProof E }

end EddsaJcs2022

/-- `Integrity<TDoc, TCs>`, core/src/verifiable/proof/integrity.rs:17-24. -/
structure Integrity (E : Env) (T : Type) where
  cryptosuiteInstance : CryptoSuite E T

namespace Integrity
variable {E : Env} {T : Type} [Proofable T]

/-- `Integrity::new`, core/src/verifiable/proof/integrity.rs:31-36. -/
def new (cs : CryptoSuite E T) : Integrity E T := ⟨cs⟩

/-- `add_proof`, core/src/verifiable/proof/integrity.rs:44-58. -/
def addProof (self : Integrity E T) (kp : E.EdKP) (doc : T) (opts : Proof) : Except ProofError T :=
  match self.cryptosuiteInstance.createProof kp doc opts with
  | .error e => .error e
  | .ok proof =>
    match proof.validate with
    | .error e => .error (.proofGenerationError e.display)
    | .ok _ => .ok (Proofable.setupProof doc proof)

/-- `verify_proof`, core/src/verifiable/proof/integrity.rs:67-102. -/
def verifyProof (self : Integrity E T) (pubkey : E.EdPub) (documentBytes : Bytes)
    (expectedProofPurpose : ProofPurpose) : Except ProofError (VerificationResult T) :=
  match (Proofable.parseJsonBytes documentBytes : Except ProofError T) with
  | .error e => .error e
  | .ok securedDoc =>
    match Proofable.getProof securedDoc with
    | none => .error (.proofVerificationError "missing document proof".toList)
    | some proofDoc =>
      match proofDoc.validate with
      | .error e => .error (.proofVerificationError e.display)
      | .ok _ =>
        if proofDoc.proofPurpose ≠ expectedProofPurpose then
          .error (.proofVerificationError "mismatch proof purpose".toList)
        else self.cryptosuiteInstance.verifyProof pubkey securedDoc

end Integrity

/-- `DataIntegrityEddsaJcs2022::new().build()`, core/src/verifiable/proof/mod.rs:233-242. -/
def DataIntegrityEddsaJcs2022.build (E : Env) (T : Type) [Proofable T] : Integrity E T :=
  Integrity.new (EddsaJcs2022.suite E T)

end Verif
