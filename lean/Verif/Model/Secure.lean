import Verif.Model.Identity

/-
JSON of core/src/keys/secure.rs. The record type `KeySecure` and its derived serialisation belong to the dependency
`prople-crypto`; they enter as a parameter `KeySecureCodec`.
-/

namespace Verif

/-- `Serialize` and `Deserialize` of `prople_crypto::keysecure::KeySecure`. -/
structure KeySecureCodec (E : Env) where
  toTree : KeySecure → Json (Num E.F)
  dec : Nat → Raw → Option KeySecure

/-- A record that is read back when at least 100 levels of nesting are left. Stated per record because the cost
parameters are unbounded numbers in the model and machine integers in the dependency. -/
def KeySecureCodec.Keeps {E : Env} (K : KeySecureCodec E) (ks : KeySecure) : Prop :=
  ∀ d, 100 ≤ d → K.dec d ((K.toTree ks).toRaw (printNum E.floatPrint)) = some ks

variable {E : Env} (K : KeySecureCodec E)

/-- Derived `Serialize`, core/src/keys/secure.rs:41-46. -/
def PrivateKeyPairs.toTree (p : PrivateKeyPairs) : Json (Num E.F) :=
  .obj [("verification".toList, K.toTree p.verification), ("aggrement".toList, K.toTree p.aggrement)]

/-- Members read by the derived `Deserialize`, core/src/keys/secure.rs:43-46. -/
def PrivateKeyPairs.fieldNames : List Str := ["verification".toList, "aggrement".toList]

/-- Derived `Deserialize`, core/src/keys/secure.rs:41-46. -/
def PrivateKeyPairs.dec (d : Nat) (r : Raw) : Option PrivateKeyPairs :=
  match structFields fieldNames d r with
  | none => none
  | some fs => do
    let verification ← reqField fs "verification".toList (K.dec (d - 1))
    let aggrement ← reqField fs "aggrement".toList (K.dec (d - 1))
    some { verification, aggrement }

/-- Derived `Serialize` with `skip_serializing_if`, core/src/keys/secure.rs:71-81. -/
def IdentityPrivateKeyPairs.toTree (p : IdentityPrivateKeyPairs) : Json (Num E.F) :=
  .obj ([("identity".toList, .str p.identity)]
    ++ optMember "authentication".toList (PrivateKeyPairs.toTree K) p.authentication
    ++ optMember "assertion".toList (PrivateKeyPairs.toTree K) p.assertion)

/-- Members read by the derived `Deserialize`, core/src/keys/secure.rs:73-81. -/
def IdentityPrivateKeyPairs.fieldNames : List Str :=
  ["identity".toList, "authentication".toList, "assertion".toList]

/-- Derived `Deserialize`, core/src/keys/secure.rs:71-81. -/
def IdentityPrivateKeyPairs.dec (d : Nat) (r : Raw) : Option IdentityPrivateKeyPairs :=
  match structFields fieldNames d r with
  | none => none
  | some fs => do
    let identity ← reqField fs "identity".toList decString
    let authentication ← optField fs "authentication".toList (PrivateKeyPairs.dec K (d - 1))
    let assertion ← optField fs "assertion".toList (PrivateKeyPairs.dec K (d - 1))
    some { identity, authentication, assertion }

/-- `ToJSON for IdentityPrivateKeyPairs`, core/src/keys/secure.rs:93-99. `serde_json::to_string` cannot fail on this
type. -/
def IdentityPrivateKeyPairs.toJson (p : IdentityPrivateKeyPairs) : Except DIDError JSONValue :=
  .ok (JSONValue.ofString (jsonText E (p.toTree K)))

end Verif
