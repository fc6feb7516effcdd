import Verif.Model.Types

/-
core/src/context/ext/user_connection.rs.
-/

namespace Verif

/-- core/src/context/ext/user_connection.rs:6 -/
def CONTEXT_USER_AGENT_ADDRESS : Str := "https://schema.org/identifier".toList

/-- `UserConnectionCredentialProperties`, core/src/context/ext/user_connection.rs:13-16. -/
structure UserConnectionCredentialProperties where
  userAgentAddress : Str
  userDid : Str
  deriving DecidableEq

/-- `Default`, core/src/context/ext/user_connection.rs:18-25. -/
def UserConnectionCredentialProperties.default : UserConnectionCredentialProperties :=
  { userAgentAddress := CONTEXT_USER_AGENT_ADDRESS, userDid := CONTEXT_VC }

/-- Derived `Serialize` with `camelCase` names, core/src/context/ext/user_connection.rs:10-16. -/
def UserConnectionCredentialProperties.toTree {N : Type} (p : UserConnectionCredentialProperties) : Json N :=
  .obj [("userAgentAddress".toList, .str p.userAgentAddress), ("userDid".toList, .str p.userDid)]

/-- Derived `Deserialize`, core/src/context/ext/user_connection.rs:10-16. -/
def UserConnectionCredentialProperties.dec (d : Nat) (r : Raw) : Option UserConnectionCredentialProperties :=
  match structFields ["userAgentAddress".toList, "userDid".toList] d r with
  | none => none
  | some fs => do
    let userAgentAddress ← reqField fs "userAgentAddress".toList decString
    let userDid ← reqField fs "userDid".toList decString
    some { userAgentAddress, userDid }

/-- `UserConnectionCredentialContext`, core/src/context/ext/user_connection.rs:30-33 (`new` at 36-40 is the
constructor). -/
structure UserConnectionCredentialContext where
  context : UserConnectionCredentialProperties
  deriving DecidableEq

/-- Derived `Serialize`, core/src/context/ext/user_connection.rs:28-33. -/
def UserConnectionCredentialContext.toTree {N : Type} (p : UserConnectionCredentialContext) : Json N :=
  .obj [("@context".toList, p.context.toTree)]

/-- Derived `Deserialize`, core/src/context/ext/user_connection.rs:28-33. -/
def UserConnectionCredentialContext.dec (d : Nat) (r : Raw) : Option UserConnectionCredentialContext :=
  match structFields ["@context".toList] d r with
  | none => none
  | some fs => do
    let context ← reqField fs "@context".toList (UserConnectionCredentialProperties.dec (d - 1))
    some { context }

/-- `UserConnectionCredential`, core/src/context/ext/user_connection.rs:47-49 (`new` at 52-56 is the
constructor). -/
structure UserConnectionCredential where
  userConnectionCredential : UserConnectionCredentialContext
  deriving DecidableEq

/-- Derived `Default`, core/src/context/ext/user_connection.rs:28,44. -/
def UserConnectionCredential.default : UserConnectionCredential := ⟨⟨.default⟩⟩

/-- Derived `Serialize` with `PascalCase` names, core/src/context/ext/user_connection.rs:44-49. -/
def UserConnectionCredential.toTree {N : Type} (p : UserConnectionCredential) : Json N :=
  .obj [("UserConnectionCredential".toList, p.userConnectionCredential.toTree)]

/-- Derived `Deserialize`, core/src/context/ext/user_connection.rs:44-49. -/
def UserConnectionCredential.dec (d : Nat) (r : Raw) : Option UserConnectionCredential :=
  match structFields ["UserConnectionCredential".toList] d r with
  | none => none
  | some fs => do
    let userConnectionCredential ←
      reqField fs "UserConnectionCredential".toList (UserConnectionCredentialContext.dec (d - 1))
    some { userConnectionCredential }

/-- `ToJSON for UserConnectionCredential`, core/src/context/ext/user_connection.rs:59-65.
`serde_json::to_string` cannot fail on this type. -/
def UserConnectionCredential.toJson (E : Env) (p : UserConnectionCredential) : Except DIDError JSONValue :=
  .ok (JSONValue.ofString (jsonText E p.toTree))

end Verif
