import Verif.Model.Types

/-
core/src/doc/mod.rs: DID documents.
-/

namespace Verif

/-- `PublicKeyDecoded`, core/src/doc/mod.rs:38-41. -/
inductive PublicKeyDecoded (E : Env) where
  | edDSA (k : E.EdPub)
  | ecdh (k : E.DhPub)

/-- `Primary`, core/src/doc/mod.rs:47-56. -/
structure Primary where
  id : Str
  controller : Str
  verificationType : Str
  multibase : Str
  deriving DecidableEq

namespace Primary

/-- `decode_pub_key_verificaiton`, core/src/doc/mod.rs:75-89. -/
def decodePubKeyVerification (E : Env) (p : Primary) : Except DIDError E.EdPub :=
  match E.mbDecode p.multibase with
  | none => .error (.decodePubKeyError "unable to decode encoded multibase to EDDSA public key".toList)
  | some (_, bytes) =>
    match utf8Decode bytes with
    | none => .error (.decodePubKeyError "unable convert public key to string".toList)
    | some hex =>
      match (hexDecode hex).bind E.edPubOfBytes with
      | none => .error (.decodePubKeyError "unable to restore public key".toList)
      | some k => .ok k

/-- `decode_pub_key_agreement`, core/src/doc/mod.rs:91-106. -/
def decodePubKeyAgreement (E : Env) (p : Primary) : Except DIDError E.DhPub :=
  match E.mbDecode p.multibase with
  | none => .error (.decodePubKeyError "unable to decode encoded multibase to ECDH public key".toList)
  | some (_, bytes) =>
    match utf8Decode bytes with
    | none => .error (.decodePubKeyError "unable convert public key to string".toList)
    | some hex =>
      match (hexDecode hex).bind E.dhPubOfBytes with
      | none => .error (.decodePubKeyError "unable to restore public key".toList)
      | some k => .ok k

/-- `Primary::decode_pub_key`, core/src/doc/mod.rs:59-73. -/
def decodePubKey (E : Env) (p : Primary) : Except DIDError (PublicKeyDecoded E) :=
  if p.verificationType = VERIFICATION_TYPE_ED25519 then
    match p.decodePubKeyVerification E with
    | .ok k => .ok (.edDSA k)
    | .error e => .error e
  else if p.verificationType = VERIFICATION_TYPE_X25519 then
    match p.decodePubKeyAgreement E with
    | .ok k => .ok (.ecdh k)
    | .error e => .error e
  else .error (.decodePubKeyError "unknown verification type".toList)

/-- `Serialize for Primary` (derive), core/src/doc/mod.rs:45-56. -/
def toTree {N : Type} (p : Primary) : Json N :=
  .obj [("id".toList, .str p.id), ("controller".toList, .str p.controller),
        ("type".toList, .str p.verificationType), ("publicKeyMultibase".toList, .str p.multibase)]

/-- Serialised field names in declaration order, core/src/doc/mod.rs:47-56. -/
def fieldNames : List Str :=
  ["id".toList, "controller".toList, "type".toList, "publicKeyMultibase".toList]

/-- `Deserialize for Primary` (derive), core/src/doc/mod.rs:45-56. -/
def dec (d : Nat) (r : Raw) : Option Primary :=
  match structFields fieldNames d r with
  | none => none
  | some fs => do
    let id ← reqField fs "id".toList decString
    let controller ← reqField fs "controller".toList decString
    let verificationType ← reqField fs "type".toList decString
    let multibase ← reqField fs "publicKeyMultibase".toList decString
    some { id, controller, verificationType, multibase }

end Primary

/-- `Doc`, core/src/doc/mod.rs:115-135. -/
structure Doc where
  context : List Str
  id : Str
  authentication : Option (List Primary)
  capInvoke : Option (List Primary)
  capDelegate : Option (List Primary)
  assertion : Option (List Primary)
  deriving DecidableEq

/-- A member that is skipped when the value is `None` (`skip_serializing_if = "Option::is_none"`). -/
def optMember {N α : Type} (k : Str) (f : α → Json N) : Option α → List (Str × Json N)
  | none => []
  | some v => [(k, f v)]

/-- `Serialize for Vec<String>`. -/
def strArr {N : Type} (l : List Str) : Json N := .arr (l.map .str)

namespace Doc

/-- `Doc::generate`, core/src/doc/mod.rs:138-148. -/
def generate (did : Str) : Doc :=
  { context := [CONTEXT_DEFAULT], id := did, authentication := none, capDelegate := none, capInvoke := none,
    assertion := none }

/-- `Doc::add_context`, core/src/doc/mod.rs:150-153. -/
def addContext (d : Doc) (c : Str) : Doc := { d with context := d.context ++ [c] }

/-- The two-step push shared by the four methods below: push if present, then create if still absent. -/
def pushOpt (l : Option (List Primary)) (p : Primary) : Option (List Primary) :=
  let l' := match l with
    | some xs => some (xs ++ [p])
    | none => none
  match l' with
  | none => some [p]
  | some xs => some xs

/-- `Doc::add_assertion`, core/src/doc/mod.rs:155-165. -/
def addAssertion (d : Doc) (p : Primary) : Doc := { d with assertion := pushOpt d.assertion p }

/-- `Doc::add_authentication`, core/src/doc/mod.rs:167-177. -/
def addAuthentication (d : Doc) (p : Primary) : Doc := { d with authentication := pushOpt d.authentication p }

/-- `Doc::add_cap_delegate`, core/src/doc/mod.rs:179-189. -/
def addCapDelegate (d : Doc) (p : Primary) : Doc := { d with capDelegate := pushOpt d.capDelegate p }

/-- `Doc::add_cap_invoke`, core/src/doc/mod.rs:191-201. -/
def addCapInvoke (d : Doc) (p : Primary) : Doc := { d with capInvoke := pushOpt d.capInvoke p }

/-- `Serialize for Doc` (derive), core/src/doc/mod.rs:113-135. -/
def toTree {N : Type} (d : Doc) : Json N :=
  .obj ([("@context".toList, strArr d.context), ("id".toList, .str d.id)]
    ++ optMember "authentication".toList (fun l => .arr (l.map Primary.toTree)) d.authentication
    ++ optMember "capabilityInvocation".toList (fun l => .arr (l.map Primary.toTree)) d.capInvoke
    ++ optMember "capabilityDelegation".toList (fun l => .arr (l.map Primary.toTree)) d.capDelegate
    ++ optMember "assertionMethod".toList (fun l => .arr (l.map Primary.toTree)) d.assertion)

/-- Serialised field names in declaration order, core/src/doc/mod.rs:115-135. -/
def fieldNames : List Str :=
  ["@context".toList, "id".toList, "authentication".toList, "capabilityInvocation".toList,
   "capabilityDelegation".toList, "assertionMethod".toList]

/-- `Deserialize for Doc` (derive), core/src/doc/mod.rs:113-135. -/
def dec (d : Nat) (r : Raw) : Option Doc :=
  match structFields fieldNames d r with
  | none => none
  | some fs => do
    let context ← reqField fs "@context".toList (decVec (fun _ => decString) (d - 1))
    let id ← reqField fs "id".toList decString
    let authentication ← optField fs "authentication".toList (decVec Primary.dec (d - 1))
    let capInvoke ← optField fs "capabilityInvocation".toList (decVec Primary.dec (d - 1))
    let capDelegate ← optField fs "capabilityDelegation".toList (decVec Primary.dec (d - 1))
    let assertion ← optField fs "assertionMethod".toList (decVec Primary.dec (d - 1))
    some { context, id, authentication, capInvoke, capDelegate, assertion }

/-- `ToJSON for Doc`, core/src/doc/mod.rs:204-210. `serde_json::to_string` cannot fail on this type. -/
def toJson (E : Env) (d : Doc) : Except DIDError JSONValue := .ok (JSONValue.ofString (jsonText E d.toTree))

/-- `Validator for Doc`, core/src/doc/mod.rs:212-226. -/
def validate (d : Doc) : Except DIDError Unit :=
  if d.id.isEmpty then .error (.validateError "[doc]: missing id".toList)
  else if d.context.isEmpty then
    .error (.validateError "[doc]: at least one context must be filled".toList)
  else .ok ()

end Doc
end Verif
