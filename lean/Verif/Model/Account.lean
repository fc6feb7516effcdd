import Verif.Model.Keys

/-
core/src/account/mod.rs.
-/

namespace Verif

/-- `AccountError`, core/src/account/mod.rs:22-37. -/
inductive AccountError where
  | decodeError (m : Str)
  | parseHexError (m : Str)
  | invalidPublicKey (m : Str)
  | encodePEMError (m : Str)
  | decodePEMError (m : Str)
  deriving DecidableEq

/-- `Display for AccountError`, core/src/account/mod.rs:23-36. -/
def AccountError.display : AccountError → Str
  | .decodeError m => "unable to decode: ".toList ++ m
  | .parseHexError m => "unable to parse: ".toList ++ m
  | .invalidPublicKey m => "invalid public key: ".toList ++ m
  | .encodePEMError m => "encode pem failed: ".toList ++ m
  | .decodePEMError m => "decode pem failed: ".toList ++ m

/-- `Account`, core/src/account/mod.rs:40-42. -/
structure Account (E : Env) where
  pair : E.EdKP

namespace Account
variable {E : Env}

/-- `Account::new` / `default`, core/src/account/mod.rs:44-54. -/
def new (E : Env) (seed : E.EdSeed) : Account E := ⟨E.edGenerate seed⟩

/-- `Account::build_pem`, core/src/account/mod.rs:56-61. -/
def buildPem (a : Account E) : Except AccountError Str :=
  match E.edPem (E.edPriv a.pair) with
  | .ok t => .ok t
  | .error m => .error (.encodePEMError m)

/-- `Account::from_pem`, core/src/account/mod.rs:63-69. -/
def fromPem (E : Env) (val : Str) : Except AccountError (Account E) :=
  match E.edOfPem val with
  | .ok k => .ok ⟨k⟩
  | .error m => .error (.decodePEMError m)

/-- `Account::from_keysecure`, core/src/account/mod.rs:71-107, step by step. -/
def fromKeysecure (E : Env) (password : Str) (ks : KeySecure) : Except AccountError (Account E) :=
  -- 73-74
  match hexDecode ks.cipherText with
  | none => .error (.decodeError (E.msg (.hex ks.cipherText)))
  | some cipher =>
    -- 76-88
    match E.kdf ks.kdfParams password (utf8Encode ks.salt) with
    | .error m => .error (.decodeError m)
    | .ok key =>
      -- 90-92
      match hexDecode ks.nonce with
      | none => .error (.decodeError (E.msg (.hex ks.nonce)))
      | some nonce =>
        -- 94-97
        if nonce.length ≠ 24 then .error (.decodeError "unable to decode nonce".toList)
        else
          -- 99-101
          match E.aeadDec key nonce cipher with
          | .error m => .error (.decodeError m)
          | .ok plain =>
            -- 103-104
            match utf8Decode plain with
            | none => .error (.decodeError (E.msg (.utf8 plain)))
            | some pem => fromPem E pem

/-- `Account::pubkey`, core/src/account/mod.rs:109-111. -/
def pubkey (a : Account E) : E.EdPub := E.edPub a.pair

/-- `Account::privkey`, core/src/account/mod.rs:113-115. -/
def privkey (a : Account E) : E.EdPriv := E.edPriv a.pair

/-- `Account::signature(message).sign()`, core/src/account/mod.rs:117-119. -/
def sign (a : Account E) (message : Bytes) : Bytes := E.edSign a.pair message

end Account
end Verif
