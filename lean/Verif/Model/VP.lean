import Verif.Model.VC

/-
core/src/verifiable/vp.rs.
-/

namespace Verif

/-- `VP`, core/src/verifiable/vp.rs:17-32. -/
structure VP (E : Env) where
  contexts : List Str
  types : List Str
  verifiableCredential : List (VC E)
  proof : Option Proof
  holder : Option Str

namespace VP
variable {E : Env}

/-- `VP::new` / `default`, core/src/verifiable/vp.rs:34-49. -/
def new (E : Env) : VP E :=
  { contexts := [], types := [], verifiableCredential := [], proof := none, holder := none }

/-- `VP::add_context`, core/src/verifiable/vp.rs:51-54. -/
def addContext (v : VP E) (c : Str) : VP E := { v with contexts := v.contexts ++ [c] }

/-- `VP::add_type`, core/src/verifiable/vp.rs:56-59. -/
def addType (v : VP E) (t : Str) : VP E := { v with types := v.types ++ [t] }

/-- `VP::add_credential`, core/src/verifiable/vp.rs:61-64. -/
def addCredential (v : VP E) (c : VC E) : VP E :=
  { v with verifiableCredential := v.verifiableCredential ++ [c] }

/-- `VP::add_proof`, core/src/verifiable/vp.rs:66-69. -/
def addProof (v : VP E) (p : Proof) : VP E := { v with proof := some p }

/-- `VP::set_holder`, core/src/verifiable/vp.rs:71-74. -/
def setHolder (v : VP E) (h : Str) : VP E := { v with holder := some h }

/-- `Serialize for VP` (derive), core/src/verifiable/vp.rs:15-32. -/
def toTree (v : VP E) : Json (Num E.F) :=
  .obj ([("@context".toList, strArr v.contexts), ("type".toList, strArr v.types),
         ("verifiableCredential".toList, .arr (v.verifiableCredential.map VC.toTree))]
    ++ optMember "proof".toList Proof.toTree v.proof
    ++ optMember "holder".toList .str v.holder)

/-- Serialised field names in declaration order, core/src/verifiable/vp.rs:17-32. -/
def fieldNames : List Str :=
  ["@context".toList, "type".toList, "verifiableCredential".toList, "proof".toList, "holder".toList]

/-- `Deserialize for VP` (derive), core/src/verifiable/vp.rs:15-32. -/
def dec (E : Env) (d : Nat) (r : Raw) : Option (VP E) :=
  match structFields fieldNames d r with
  | none => none
  | some fs => do
    let contexts ← reqField fs "@context".toList (decVec (fun _ => decString) (d - 1))
    let types ← reqField fs "type".toList (decVec (fun _ => decString) (d - 1))
    let verifiableCredential ← reqField fs "verifiableCredential".toList (decVec (VC.dec E) (d - 1))
    let proof ← optField fs "proof".toList (Proof.dec (d - 1))
    let holder ← optField fs "holder".toList decString
    some { contexts, types, verifiableCredential, proof, holder }

/-- `Validator for VP`, core/src/verifiable/vp.rs:101-121. -/
def validate (v : VP E) : Except DIDError Unit :=
  if v.contexts.isEmpty then .error (.generateJSONError "vp: empty context".toList)
  else if v.types.isEmpty then .error (.generateJSONError "vp: empty types".toList)
  else if v.verifiableCredential.isEmpty then .error (.generateJSONError "vp: empty credentials".toList)
  else .ok ()

/-- `ToJSON for VP`, core/src/verifiable/vp.rs:77-89. `serde_json::to_string` cannot fail on this type. -/
def toJson (v : VP E) : Except DIDError JSONValue :=
  match v.validate with
  | .ok _ => .ok (JSONValue.ofString (jsonText E v.toTree))
  | .error e => .error e

/-- `ToJCS for VP`, core/src/verifiable/vp.rs:91-99. `serde_jcs::to_string` cannot fail on this type. -/
def toJcs (v : VP E) : Except DIDError Str :=
  match v.validate with
  | .ok _ => .ok (jcsText E v.toTree)
  | .error e => .error e

/-- `VP::remove_proof`, core/src/verifiable/vp.rs:140-144. -/
def removeProof (v : VP E) : VP E := { v with proof := none }

/-- `VP::parse_json_bytes`, core/src/verifiable/vp.rs:133-138. -/
def parseJsonBytes (E : Env) (bytes : Bytes) : Except ProofError (VP E) :=
  match fromSlice (dec E) bytes with
  | some v => .ok v
  | none => .error (.proofGenerationError (E.msg (.vp bytes)))

/-- `Proofable for VP`, core/src/verifiable/vp.rs:123-145. -/
instance instProofable : Proofable (VP E) where
  toJson := toJson
  toJcs := toJcs
  validate := validate
  getProof v := v.proof
  removeProof := removeProof
  setupProof v p := v.addProof p
  parseJsonBytes := parseJsonBytes E

end VP
end Verif
