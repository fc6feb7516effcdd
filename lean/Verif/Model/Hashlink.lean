import Verif.Model.Types

/-
core/src/hashlink.rs. The data argument (`impl ToJSON`) is only used through `data.to_json()`, so it is
modelled by that result.
-/

namespace Verif.Hashlink
open Verif

/-- `generate_from_json`, core/src/hashlink.rs:12-20. -/
def generateFromJson (E : Env) (data : Except DIDError JSONValue) : Except DIDError Str := do
  let jsondata ← data
  let hashed := E.blake3 (utf8Encode jsondata.toString')
  match multihash32 BLAKE3_HASH_CODE hashed with
  | none => .error (.generateHashLinkError (E.msg (.multihash hashed)))
  | some out => .ok (multibaseEncode58 out)

/-- `verify_from_json`, core/src/hashlink.rs:28-49. -/
def verifyFromJson (E : Env) (data : Except DIDError JSONValue) (encoded : Str) : Except DIDError Unit := do
  let jsondata ← data
  let hashed := E.blake3 (utf8Encode jsondata.toString')
  match E.mbDecode encoded with
  | none => .error (.hashLinkError (E.msg (.multibase encoded)))
  | some (base, bytes) =>
    if base ≠ .base58Btc then .error (.hashLinkError "unknown base encoded type".toList)
    else
      match multihash32 BLAKE3_HASH_CODE hashed with
      | none => .error (.hashLinkError (E.msg (.multihash hashed)))
      | some out =>
        if bytes ≠ out then .error (.hashLinkError "invalid hashlink".toList) else .ok ()

end Verif.Hashlink
