import Verif.Spec.Wire
import Verif.Spec.Multibase
import Verif.Model.Suite
import Verif.Model.VP

/-
Independent description of the `eddsa-jcs-2022` data integrity suite: which options are acceptable and which
bytes are signed. No definition of Verif/Model/Suite.lean is used.
-/

namespace Verif.Spec
open Verif

/-- Options the suite works with. -/
structure GoodOptions (E : Env) (p : Proof) : Prop where
  type : p.typ = "DataIntegrityProof".toList
  suite : p.cryptosuite = some "eddsa-jcs-2022".toList
  created : ∃ c, p.created = some c ∧ E.parseDate c = .ok ()

/-- Bytes hashed for the options. -/
def optionBytes (E : Env) (p : Proof) : Bytes := utf8 (canonicalText E (proofObject p))

/-- Bytes hashed for a credential. -/
def vcBytes {E : Env} (v : VC E) : Bytes := utf8 (canonicalText E (vcObject v))

/-- Bytes hashed for a presentation. -/
def vpBytes {E : Env} (v : VP E) : Bytes := utf8 (canonicalText E (vpObject v))

/-- The signed message: options hash first. -/
def message (E : Env) (opts doc : Bytes) : Bytes := E.sha256 opts ++ E.sha256 doc

/-- The options a proof was made from. -/
def unvalued (p : Proof) : Proof :=
  ⟨p.id, p.typ, p.proofPurpose, [], p.verificationMethod, p.created, p.expires, p.cryptosuite⟩

/-- The credential without its proof. -/
def unsignedVC {E : Env} (v : VC E) : VC E := ⟨v.contexts, v.types, v.credentialSubject, none, v.id, v.issuer⟩

/-- The presentation without its proof. -/
def unsignedVP {E : Env} (v : VP E) : VP E := ⟨v.contexts, v.types, v.verifiableCredential, none, v.holder⟩

/-- `t` is a signature text the key accepts for the message: some multibase text of bytes whose hex text the key
verifies. -/
def Accepts (E : Env) (pub : E.EdPub) (msg : Bytes) (t : Str) : Prop :=
  ∃ base sig hex, IsMultibase E base sig t ∧ IsHex sig hex ∧ E.edVerify pub msg hex = .ok true

end Verif.Spec
