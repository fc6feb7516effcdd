import Verif.Model.Doc
import Verif.Model.Keys

/-
core/src/identity/mod.rs.
-/

namespace Verif

/-- `VerificationMethod`, core/src/identity/mod.rs:16-19. -/
structure VerificationMethod (E : Env) where
  verificationPairs : Verification.Pairs E
  agreementPairs : Agreement.Pairs E

/-- `Identity`, core/src/identity/mod.rs:27-31. -/
structure Identity (E : Env) where
  identity : Str
  authentication : Option (VerificationMethod E)
  assertion : Option (VerificationMethod E)

/-- Randomness of one `build_verification_method` call. -/
structure MethodSeed (E : Env) where
  ed : E.EdSeed
  dh : E.DhSeed

/-- Randomness of one `build_private_keys` call (one export per slot). -/
structure PrivateKeysRandom where
  authVerification : ExportRandom
  authAgreement : ExportRandom
  assertionVerification : ExportRandom
  assertionAgreement : ExportRandom

namespace Identity
variable {E : Env}

/-- `Identity::new`, core/src/identity/mod.rs:34-40. -/
def new (E : Env) (val : Str) : Identity E := { identity := val, authentication := none, assertion := none }

/-- `Identity::value`, core/src/identity/mod.rs:42-44. -/
def value (i : Identity E) : Str := i.identity

/-- `Identity::account`, core/src/identity/mod.rs:46-58. -/
def account (i : Identity E) : Except DIDError Str :=
  let value := splitOn DID_SYNTAX_MARK i.identity
  if value.length < 3 then .error .invalidDID
  else
    match value.getLast? with
    | some v => .ok v
    | none => .error .invalidDID

/-- `get_authentication_method`, core/src/identity/mod.rs:60-62. -/
def getAuthenticationMethod (i : Identity E) : Option (VerificationMethod E) := i.authentication

/-- `get_assertion_method`, core/src/identity/mod.rs:64-66. -/
def getAssertionMethod (i : Identity E) : Option (VerificationMethod E) := i.assertion

/-- `build_verification_method`, core/src/identity/mod.rs:86-97. -/
def buildVerificationMethod (s : MethodSeed E) : VerificationMethod E :=
  { verificationPairs := (Verification.Key.new E s.ed).generate,
    agreementPairs := (Agreement.Key.new E s.dh).generate }

/-- `build_auth_method`, core/src/identity/mod.rs:68-75. -/
def buildAuthMethod (i : Identity E) (s : MethodSeed E) : Identity E :=
  if i.authentication.isNone then { i with authentication := some (buildVerificationMethod s) } else i

/-- `build_assertion_method`, core/src/identity/mod.rs:77-84. -/
def buildAssertionMethod (i : Identity E) (s : MethodSeed E) : Identity E :=
  if i.assertion.isNone then { i with assertion := some (buildVerificationMethod s) } else i

/-- `ToDoc for Identity`, core/src/identity/mod.rs:100-151. -/
def toDoc (i : Identity E) : Doc :=
  let authVerificationId := i.identity ++ "#key-auth-verification".toList
  let authAgreementId := i.identity ++ "#key-auth-aggrement".toList
  let assertionVerificationId := i.identity ++ "#key-assertion-verification".toList
  let assertionAgreementId := i.identity ++ "#key-assertion-aggrement".toList
  let doc := ((Doc.generate i.identity).addContext CONTEXT_ED25519).addContext CONTEXT_X25519
  let doc := match i.authentication with
    | none => doc
    | some auth =>
      (doc.addAuthentication
        { id := authVerificationId, controller := i.identity, verificationType := VERIFICATION_TYPE_ED25519,
          multibase := auth.verificationPairs.pubKey }).addAuthentication
        { id := authAgreementId, controller := i.identity, verificationType := VERIFICATION_TYPE_X25519,
          multibase := auth.agreementPairs.pubKey }
  match i.assertion with
    | none => doc
    | some assertion =>
      (doc.addAssertion
        { id := assertionVerificationId, controller := i.identity, verificationType := VERIFICATION_TYPE_ED25519,
          multibase := assertion.verificationPairs.pubKey }).addAssertion
        { id := assertionAgreementId, controller := i.identity, verificationType := VERIFICATION_TYPE_X25519,
          multibase := assertion.agreementPairs.pubKey }

/-- One slot of `build_private_keys`, core/src/identity/mod.rs:160-177 and 179-196. -/
def buildSlot (rv ra : ExportRandom) (password : Str) :
    Option (VerificationMethod E) → Except KeySecureError (Option PrivateKeyPairs)
  | none => .ok none
  | some m =>
    match m.verificationPairs.buildKeysecure rv password with
    | .error _ => .error .buildIdentityPrivateKeysError
    | .ok v =>
      match m.agreementPairs.buildKeysecure ra password with
      | .error _ => .error .buildIdentityPrivateKeysError
      | .ok a => .ok (some { verification := v, aggrement := a })

/-- `build_private_keys`, core/src/identity/mod.rs:153-199. -/
def buildPrivateKeys (r : PrivateKeysRandom) (i : Identity E) (password : Str) :
    Except KeySecureError IdentityPrivateKeyPairs :=
  match buildSlot r.authVerification r.authAgreement password i.authentication with
  | .error e => .error e
  | .ok authentication =>
    match buildSlot r.assertionVerification r.assertionAgreement password i.assertion with
    | .error e => .error e
    | .ok assertion => .ok { IdentityPrivateKeyPairs.new i.value with authentication, assertion }

end Identity
end Verif
