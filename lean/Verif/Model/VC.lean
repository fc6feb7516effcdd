import Verif.Model.Proof

/-
core/src/verifiable/vc.rs.
-/

namespace Verif

/-- `VC`, core/src/verifiable/vc.rs:21-36. -/
structure VC (E : Env) where
  contexts : List Str
  types : List Str
  credentialSubject : Value E
  proof : Option Proof
  id : Str
  issuer : Str

/-- `Value::Null`. -/
def valueNull (E : Env) : Value E := ⟨.null, by simp [Json.Sorted]⟩

namespace VC
variable {E : Env}

/-- `VC::new`, core/src/verifiable/vc.rs:39-48. -/
def new (E : Env) (id issuer : Str) : VC E :=
  { id, issuer, contexts := [], types := [], credentialSubject := valueNull E, proof := none }

/-- `VC::add_context`, core/src/verifiable/vc.rs:50-53. -/
def addContext (v : VC E) (c : Str) : VC E := { v with contexts := v.contexts ++ [c] }

/-- `VC::add_type`, core/src/verifiable/vc.rs:55-58. -/
def addType (v : VC E) (t : Str) : VC E := { v with types := v.types ++ [t] }

/-- `VC::set_credential`, core/src/verifiable/vc.rs:60-63. -/
def setCredential (v : VC E) (c : Value E) : VC E := { v with credentialSubject := c }

/-- `VC::proof`, core/src/verifiable/vc.rs:65-68. -/
def setProof (v : VC E) (p : Proof) : VC E := { v with proof := some p }

/-- `Serialize for VC` (derive), core/src/verifiable/vc.rs:19-36. -/
def toTree (v : VC E) : Json (Num E.F) :=
  .obj ([("@context".toList, strArr v.contexts), ("type".toList, strArr v.types),
         ("credentialSubject".toList, v.credentialSubject.1)]
    ++ optMember "proof".toList Proof.toTree v.proof
    ++ [("id".toList, .str v.id), ("issuer".toList, .str v.issuer)])

/-- Serialised field names in declaration order, core/src/verifiable/vc.rs:21-36. -/
def fieldNames : List Str :=
  ["@context".toList, "type".toList, "credentialSubject".toList, "proof".toList, "id".toList, "issuer".toList]

/-- `Deserialize for VC` (derive), core/src/verifiable/vc.rs:19-36. -/
def dec (E : Env) (d : Nat) (r : Raw) : Option (VC E) :=
  match structFields fieldNames d r with
  | none => none
  | some fs => do
    let contexts ← reqField fs "@context".toList (decVec (fun _ => decString) (d - 1))
    let types ← reqField fs "type".toList (decVec (fun _ => decString) (d - 1))
    let credentialSubject ← reqField fs "credentialSubject".toList (decVal' E (d - 1))
    let proof ← optField fs "proof".toList (Proof.dec (d - 1))
    let id ← reqField fs "id".toList decString
    let issuer ← reqField fs "issuer".toList decString
    some { contexts, types, credentialSubject, proof, id, issuer }

/-- `Value == Value::Null`. -/
def isNullValue (v : Value E) : Bool :=
  match v.1 with
  | .null => true
  | _ => false

/-- `Validator for VC`, core/src/verifiable/vc.rs:97-119. -/
def validate (v : VC E) : Except DIDError Unit :=
  if v.contexts.isEmpty then .error (.generateVCError "vc_error: empty context".toList)
  else if v.types.isEmpty then .error (.generateVCError "vc_error: empty types".toList)
  else if isNullValue v.credentialSubject then
    .error (.generateVCError "vc_error: credential should not be null".toList)
  else .ok ()

/-- `ToJSON for VC`, core/src/verifiable/vc.rs:71-84. `serde_json::to_string` cannot fail on this type. -/
def toJson (v : VC E) : Except DIDError JSONValue :=
  match v.validate with
  | .ok _ => .ok (JSONValue.ofString (jsonText E v.toTree))
  | .error e => .error e

/-- `ToJCS for VC`, core/src/verifiable/vc.rs:86-95. `serde_jcs::to_string` cannot fail on this type. -/
def toJcs (v : VC E) : Except DIDError Str :=
  match v.validate with
  | .ok _ => .ok (jcsText E v.toTree)
  | .error e => .error e

/-- `VC::remove_proof`, core/src/verifiable/vc.rs:138-142. -/
def removeProof (v : VC E) : VC E := { v with proof := none }

/-- `VC::parse_json_bytes`, core/src/verifiable/vc.rs:131-136. -/
def parseJsonBytes (E : Env) (bytes : Bytes) : Except ProofError (VC E) :=
  match fromSlice (dec E) bytes with
  | some v => .ok v
  | none => .error (.proofGenerationError (E.msg (.vc bytes)))

/-- `Proofable for VC`, core/src/verifiable/vc.rs:121-143. -/
instance instProofable : Proofable (VC E) where
  toJson := toJson
  toJcs := toJcs
  validate := validate
  getProof v := v.proof
  removeProof := removeProof
  setupProof v p := v.setProof p
  parseJsonBytes := parseJsonBytes E

end VC
end Verif
