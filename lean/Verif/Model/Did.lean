import Verif.Model.Account
import Verif.Model.Identity

/-
core/src/did/query.rs and core/src/did/mod.rs.
-/

namespace Verif

/-- `Params`, core/src/did/query.rs:8-11. -/
structure Params where
  address : Option Str := none
  hl : Option Str := none
  deriving DecidableEq

namespace Params

/-- `Params::parse_multiaddr`, core/src/did/query.rs:14-25. -/
def parseMultiaddr (E : Env) (p : Params) : Except DIDError (Option E.Multiaddr) :=
  match p.address with
  | some addr =>
    match E.parseMultiaddr addr with
    | .ok a => .ok (some a)
    | .error m => .error (.generateMultiAddrError m)
  | none => .ok none

/-- `Params::build_query`, core/src/did/query.rs:27-43. -/
def buildQuery (p : Params) : Option Str :=
  let q : List Str := []
  let q := match p.address with
    | some addr => q ++ ["address=".toList ++ addr]
    | none => q
  let q := match p.hl with
    | some hl => q ++ ["hl=".toList ++ hl]
    | none => q
  if q.isEmpty then none else some (joinWith '&' q)

/-- Derived `Serialize` (no `skip_serializing_if`: an absent parameter is `null`), core/src/did/query.rs:6-11. -/
def toTree {N : Type} (p : Params) : Json N :=
  .obj [("address".toList, (p.address.map Json.str).getD .null), ("hl".toList, (p.hl.map Json.str).getD .null)]

/-- Members read by the derived `Deserialize`, core/src/did/query.rs:8-11. -/
def fieldNames : List Str := ["address".toList, "hl".toList]

/-- Derived `Deserialize`, core/src/did/query.rs:6-11. -/
def dec (d : Nat) (r : Raw) : Option Params :=
  match structFields fieldNames d r with
  | none => none
  | some fs => do
    let address ← optField fs "address".toList decString
    let hl ← optField fs "hl".toList decString
    some { address, hl }

end Params

/-- `DID`, core/src/did/mod.rs:28-30; `DID::account` (123-125) is the field itself. -/
structure DID (E : Env) where
  account : Account E

/-- Outcome of code that may panic (slice indexing in `parse_uri`): `none` is a panic. -/
abbrev Panics (α : Type) := Option α

namespace DID
variable {E : Env}

/-- `DID::new` / `default`, core/src/did/mod.rs:32-43. -/
def new (E : Env) (seed : E.EdSeed) : DID E := ⟨Account.new E seed⟩

/-- `DID::from_pem`, core/src/did/mod.rs:45-51. -/
def fromPem (E : Env) (val : Str) : Except DIDError (DID E) :=
  match Account.fromPem E val with
  | .ok a => .ok ⟨a⟩
  | .error _ => .error .invalidPEM

/-- `DID::from_keysecure`, core/src/did/mod.rs:53-57. -/
def fromKeysecure (E : Env) (password : Str) (ks : KeySecure) : Except DIDError (DID E) :=
  match Account.fromKeysecure E password ks with
  | .ok a => .ok ⟨a⟩
  | .error e => .error (.invalidKeysecure e.display)

/-- `DID::identity`, core/src/did/mod.rs:59-78. -/
def identity (d : DID E) : Except DIDError (Identity E) :=
  let pubkeyBytes := E.edPubBytes d.account.pubkey
  let pubkeySha3 := E.sha384 pubkeyBytes
  let pubkeyBlake3 := E.blake3 pubkeySha3
  let pubkeyHex := hexEncode pubkeyBlake3
  let encoded := multibaseEncode58 (utf8Encode pubkeyHex)
  let id := DID_SYNTAX_SCHEME ++ ":".toList ++ DID_SYNTAX_METHOD ++ ":".toList ++ encoded
  .ok (Identity.new E id)

/-- `DID::build_uri`, core/src/did/mod.rs:80-91. -/
def buildUri (d : DID E) (params : Option Params) : Except DIDError Str :=
  match d.identity with
  | .error e => .error e
  | .ok identity =>
    let primary := identity.value
    match params with
    | some q =>
      match q.buildQuery with
      | some val => .ok (primary ++ "?".toList ++ val)
      | none => .error .buildURIError
    | none => .ok primary

/-- The loop of `parse_uri`, core/src/did/mod.rs:104-117. -/
def parseQueries : List Str → Params → Panics Params
  | [], p => some p
  | q :: qs, p =>
    let sp := splitOn '=' q
    if sp.length ≤ 1 then parseQueries qs p
    else
      match sp[0]?, sp[1]? with
      | some k, some v =>
        let p := if k = "address".toList then { p with address := some v } else p
        let p := if k = "hl".toList then { p with hl := some v } else p
        parseQueries qs p
      | _, _ => none

/-- `DID::parse_uri`, core/src/did/mod.rs:93-121. -/
def parseUri (uri : Str) : Panics (Except DIDError (Str × Params)) :=
  let splitted := splitOn '?' uri
  if splitted.isEmpty then some (.error (.parseURIError "invalid given uri".toList))
  else
    match splitted[0]? with
    | none => none
    | some did =>
      if splitted.length > 1 then
        match splitted[1]? with
        | none => none
        | some q =>
          match parseQueries (splitOn '&' q) {} with
          | none => none
          | some params => some (.ok (did, params))
      else some (.ok (did, {}))

end DID
end Verif
