import Verif.Lemmas.Reads
import Verif.Lemmas.RoundTrip
import Verif.Props.Wire
import Verif.Model.Did
import Verif.Props.Uri

/-
C65: the texts of errors. C66: query parameters as JSON (core/src/did/query.rs:6-11).
-/

namespace Verif.Spec
open Verif

/-- Query parameters on the wire; absent ones are written as `null`. -/
def paramsObject {N : Type} (address hl : Option Str) : Json N :=
  .obj [("address".toList, match address with | some a => .str a | none => .null),
    ("hl".toList, match hl with | some h => .str h | none => .null)]

/-- Query parameters. -/
def ReadsParams (r : Raw) (p : Params) : Prop :=
  ∃ get, StructOf ["address", "hl"] r get ∧ May get "address" ReadsText p.address ∧ May get "hl" ReadsText p.hl

end Verif.Spec

namespace Verif
open Spec

theorem Params.dec_toTree {N : Type} (pr : N → Bytes) (p : Params) (d : Nat) (hd : 2 ≤ d) :
    Params.dec d ((p.toTree : Json N).toRaw pr) = some p := by
  obtain ⟨a, h⟩ := p
  unfold Params.dec Params.toTree
  rw [structFields_obj _ _ _ d (by omega)]
  · cases a <;> cases h <;> simp [optField, List.lookup] <;>
      simp [Json.toRaw, decString, decStr_encStr]
  · simp [Params.fieldNames]
  · simp

theorem params_tree {N : Type} (p : Params) : (p.toTree : Json N) = paramsObject p.address p.hl := by
  obtain ⟨a, h⟩ := p
  cases a <;> cases h <;> rfl

theorem readsParams_iff {d : Nat} (hd : 2 ≤ d) (r : Raw) (hr : r.Ok) (p : Params) :
    Params.dec d r = some p ↔ ReadsParams r p := by
  have e : Params.dec d r = some p ↔
      ∃ fs, structFields ["address".toList, "hl".toList] d r = some fs ∧
        optField fs "address".toList decString = some p.address ∧ optField fs "hl".toList decString = some p.hl := by
    unfold Params.dec Params.fieldNames
    cases structFields ["address".toList, "hl".toList] d r with
    | none => simp
    | some fs =>
      simp only [bind, Option.bind_eq_some_iff, Option.some.injEq]
      constructor
      · rintro ⟨a, ha, b, hb, rfl⟩
        exact ⟨fs, rfl, ha, hb⟩
      · rintro ⟨_, rfl, ha, hb⟩
        exact ⟨_, ha, _, hb, rfl⟩
  rw [e]
  refine struct_iff (names := ["address", "hl"]) (by decide) (by omega) hr ?_
  intro fs get h hok
  rw [optField_iff _ (h "address" (by simp)) (hok "address" (by simp)) fun y hy x => readsText_iff y hy x,
    optField_iff _ (h "hl" (by simp)) (hok "hl" (by simp)) fun y hy x => readsText_iff y hy x]

/-- The two texts differ at some position both have. -/
def clash : Str → Str → Bool
  | a :: x, b :: y => a != b || clash x y
  | _, _ => false

theorem clash_append {x y m m' : Str} (h : clash x y = true) : x ++ m ≠ y ++ m' := by
  induction x generalizing y with
  | nil => simp [clash] at h
  | cons a x ih =>
    cases y with
    | nil => simp [clash] at h
    | cons b y =>
      intro e
      rw [List.cons_append, List.cons_append, List.cons.injEq] at e
      simp only [clash, e.1, bne_self_eq_false, Bool.false_or] at h
      exact ih h e.2

/-- Texts that begin with one of several pairwise clashing texts: the beginning and the rest are determined. -/
theorem prefixes_inj {l : List Str} (hl : l.Pairwise fun a b => clash a b = true) {i j : Nat} {p q m m' : Str}
    (hp : l[i]? = some p) (hq : l[j]? = some q) (h : p ++ m = q ++ m') : (i, m) = (j, m') := by
  obtain ⟨hi, rfl⟩ := List.getElem?_eq_some_iff.mp hp
  obtain ⟨hj, rfl⟩ := List.getElem?_eq_some_iff.mp hq
  rw [List.pairwise_iff_getElem] at hl
  rcases Nat.lt_trichotomy i j with hij | rfl | hij
  · exact absurd h (clash_append (hl i j hi hj hij))
  · rw [List.append_cancel_left h]
  · exact absurd h.symm (clash_append (hl j i hj hi hij))

/-- Which `DIDError` it is, and the text it carries. -/
def DIDError.code : DIDError → Nat × Str
  | .invalidDID => (0, [])
  | .invalidPEM => (1, [])
  | .invalidKeysecure m => (2, m)
  | .generateMultiAddrError m => (3, m)
  | .generateDocError m => (4, m)
  | .generateJSONError m => (5, m)
  | .generateJSONJCSError m => (6, m)
  | .generateVCError m => (7, m)
  | .generateHashLinkError m => (8, m)
  | .buildProofError m => (9, m)
  | .buildPayloadError m => (10, m)
  | .validateError m => (11, m)
  | .decodeJSONError m => (12, m)
  | .invalidJSONBytes m => (13, m)
  | .decodePubKeyError m => (14, m)
  | .hashLinkError m => (15, m)
  | .parseURIError m => (16, m)
  | .buildAuthError => (17, [])
  | .buildAssertionError => (18, [])
  | .buildURIError => (19, [])
  | .buildDocError => (20, [])
  | .saveSecureKeysError => (21, [])
  | .proofInvalid => (22, [])

/-- Inverse of `DIDError.code`. -/
def DIDError.ofCode : Nat × Str → DIDError
  | (0, _) => .invalidDID
  | (1, _) => .invalidPEM
  | (2, m) => .invalidKeysecure m
  | (3, m) => .generateMultiAddrError m
  | (4, m) => .generateDocError m
  | (5, m) => .generateJSONError m
  | (6, m) => .generateJSONJCSError m
  | (7, m) => .generateVCError m
  | (8, m) => .generateHashLinkError m
  | (9, m) => .buildProofError m
  | (10, m) => .buildPayloadError m
  | (11, m) => .validateError m
  | (12, m) => .decodeJSONError m
  | (13, m) => .invalidJSONBytes m
  | (14, m) => .decodePubKeyError m
  | (15, m) => .hashLinkError m
  | (16, m) => .parseURIError m
  | (17, _) => .buildAuthError
  | (18, _) => .buildAssertionError
  | (19, _) => .buildURIError
  | (20, _) => .buildDocError
  | (21, _) => .saveSecureKeysError
  | (_, _) => .proofInvalid

theorem DIDError.ofCode_code (e : DIDError) : DIDError.ofCode e.code = e := by cases e <;> rfl

/-- Beginnings of the texts, in the order of `DIDError.code`. -/
def DIDError.prefixes : List Str :=
  ["invalid did".toList,
   "invalid pem".toList,
   "invalid keysecure: ".toList,
   "error generate multiaddr: ".toList,
   "error generate DID DOC: ".toList,
   "error generate JSON: ".toList,
   "error generate JCS: ".toList,
   "error generate VC: ".toList,
   "error generate hashlink: ".toList,
   "error build proof: ".toList,
   "error build payload: ".toList,
   "validation error: ".toList,
   "error decode json value: ".toList,
   "unable to get JSON from bytes: ".toList,
   "error decode public key: ".toList,
   "error hashlink: ".toList,
   "error parse uri: ".toList,
   "error build auth".toList,
   "error build assertion".toList,
   "error build DID uri".toList,
   "error build DID DOC".toList,
   "unable to save key secure".toList,
   "proof: signature invalid".toList]

theorem DIDError.display_code (e : DIDError) :
    ∃ p, DIDError.prefixes[e.code.1]? = some p ∧ e.display = p ++ e.code.2 := by
  cases e <;> exact ⟨_, rfl, rfl⟩

theorem DIDError.display_inj (e e' : DIDError) (h : e.display = e'.display) : e = e' := by
  obtain ⟨p, hp, h1⟩ := DIDError.display_code e
  obtain ⟨q, hq, h2⟩ := DIDError.display_code e'
  rw [h1, h2] at h
  rw [← DIDError.ofCode_code e, ← DIDError.ofCode_code e']
  exact congrArg DIDError.ofCode (prefixes_inj (l := DIDError.prefixes) (by decide +kernel) hp hq h)

/-- Which `AccountError` it is, and the text it carries. -/
def AccountError.code : AccountError → Nat × Str
  | .decodeError m => (0, m)
  | .parseHexError m => (1, m)
  | .invalidPublicKey m => (2, m)
  | .encodePEMError m => (3, m)
  | .decodePEMError m => (4, m)

/-- Inverse of `AccountError.code`. -/
def AccountError.ofCode : Nat × Str → AccountError
  | (0, m) => .decodeError m
  | (1, m) => .parseHexError m
  | (2, m) => .invalidPublicKey m
  | (3, m) => .encodePEMError m
  | (_, m) => .decodePEMError m

theorem AccountError.ofCode_code (e : AccountError) : AccountError.ofCode e.code = e := by cases e <;> rfl

/-- Beginnings of the texts, in the order of `AccountError.code`. -/
def AccountError.prefixes : List Str :=
  ["unable to decode: ".toList,
   "unable to parse: ".toList,
   "invalid public key: ".toList,
   "encode pem failed: ".toList,
   "decode pem failed: ".toList]

theorem AccountError.display_code (e : AccountError) :
    ∃ p, AccountError.prefixes[e.code.1]? = some p ∧ e.display = p ++ e.code.2 := by
  cases e <;> exact ⟨_, rfl, rfl⟩

theorem AccountError.display_inj (e e' : AccountError) (h : e.display = e'.display) : e = e' := by
  obtain ⟨p, hp, h1⟩ := AccountError.display_code e
  obtain ⟨q, hq, h2⟩ := AccountError.display_code e'
  rw [h1, h2] at h
  rw [← AccountError.ofCode_code e, ← AccountError.ofCode_code e']
  exact congrArg AccountError.ofCode (prefixes_inj (l := AccountError.prefixes) (by decide +kernel) hp hq h)

/-- Which `ProofError` it is, and the text it carries. -/
def ProofError.code : ProofError → Nat × Str
  | .proofGenerationError m => (0, m)
  | .proofVerificationError m => (1, m)
  | .proofTransformationError m => (2, m)
  | .invalidDomainError m => (3, m)
  | .invalidChallengeError m => (4, m)

/-- Inverse of `ProofError.code`. -/
def ProofError.ofCode : Nat × Str → ProofError
  | (0, m) => .proofGenerationError m
  | (1, m) => .proofVerificationError m
  | (2, m) => .proofTransformationError m
  | (3, m) => .invalidDomainError m
  | (_, m) => .invalidChallengeError m

theorem ProofError.ofCode_code (e : ProofError) : ProofError.ofCode e.code = e := by cases e <;> rfl

/-- Beginnings of the texts, in the order of `ProofError.code`. -/
def ProofError.prefixes : List Str :=
  ["proof generation error: ".toList,
   "proof verification error: ".toList,
   "proof transformation error: ".toList,
   "invalid domain error: ".toList,
   "invalid challenge error: ".toList]

theorem ProofError.display_code (e : ProofError) :
    ∃ p, ProofError.prefixes[e.code.1]? = some p ∧ e.display = p ++ e.code.2 := by
  cases e <;> exact ⟨_, rfl, rfl⟩

theorem ProofError.display_inj (e e' : ProofError) (h : e.display = e'.display) : e = e' := by
  obtain ⟨p, hp, h1⟩ := ProofError.display_code e
  obtain ⟨q, hq, h2⟩ := ProofError.display_code e'
  rw [h1, h2] at h
  rw [← ProofError.ofCode_code e, ← ProofError.ofCode_code e']
  exact congrArg ProofError.ofCode (prefixes_inj (l := ProofError.prefixes) (by decide +kernel) hp hq h)

/-- Which `KeySecureError` it is, and what follows the beginning of its text and an end mark. -/
def KeySecureError.code : KeySecureError → Nat × Str
  | .buildKeySecureError => (0, [])
  | .buildIdentityPrivateKeysError => (1, [])
  | .buildJSONError => (2, [])
  | .storageError => (3, [])
  | .decryptError m => (4, m ++ ['.'])

/-- Inverse of `KeySecureError.code`. -/
def KeySecureError.ofCode : Nat × Str → KeySecureError
  | (0, _) => .buildKeySecureError
  | (1, _) => .buildIdentityPrivateKeysError
  | (2, _) => .buildJSONError
  | (3, _) => .storageError
  | (_, m) => .decryptError m.dropLast

theorem KeySecureError.ofCode_code (e : KeySecureError) : KeySecureError.ofCode e.code = e := by
  cases e <;> simp [code, ofCode]

/-- Beginnings of the texts with an end mark, in the order of `KeySecureError.code`. -/
def KeySecureError.prefixes : List Str :=
  ["keysecure error.".toList,
   "keysecure error: unable to build identity private keys.".toList,
   "keysecure error: unable to build JSON.".toList,
   "keysecure error: storage error.".toList,
   "keysecure error: decrypt error: ".toList]

theorem KeySecureError.display_code (e : KeySecureError) :
    ∃ p, KeySecureError.prefixes[e.code.1]? = some p ∧ e.display ++ ['.'] = p ++ e.code.2 := by
  cases e with
  | decryptError m => exact ⟨_, rfl, List.append_assoc _ _ _⟩
  | _ => exact ⟨_, rfl, by decide +kernel⟩

theorem KeySecureError.display_inj (e e' : KeySecureError) (h : e.display = e'.display) : e = e' := by
  obtain ⟨p, hp, h1⟩ := KeySecureError.display_code e
  obtain ⟨q, hq, h2⟩ := KeySecureError.display_code e'
  rw [h, h2] at h1
  rw [← KeySecureError.ofCode_code e, ← KeySecureError.ofCode_code e']
  exact congrArg KeySecureError.ofCode (prefixes_inj (l := KeySecureError.prefixes) (by decide +kernel) hp hq h1.symm)

end Verif

namespace Verif.Props
open Verif Spec

/-! ### C65 -/

/-- C65: different `DIDError`s have different texts. -/
theorem C65_did_error (e e' : DIDError) (h : e.display = e'.display) : e = e' :=
  DIDError.display_inj e e' h

/-- C65: different `AccountError`s have different texts. -/
theorem C65_account_error (e e' : AccountError) (h : e.display = e'.display) : e = e' :=
  AccountError.display_inj e e' h

/-- C65: different `ProofError`s have different texts. -/
theorem C65_proof_error (e e' : ProofError) (h : e.display = e'.display) : e = e' :=
  ProofError.display_inj e e' h

/-- C65: different errors of the key export have different texts. -/
theorem C65_keysecure_error (e e' : KeySecureError) (h : e.display = e'.display) : e = e' :=
  KeySecureError.display_inj e e' h

/-- C65: the text inside `InvalidKeysecure` tells which account error it was. -/
theorem C65_from_keysecure {E : Env} (pw : Str) (ks : KeySecure) (m : Str)
    (h : DID.fromKeysecure E pw ks = .error (.invalidKeysecure m)) :
    ∃ e, Account.fromKeysecure E pw ks = .error e ∧ e.display = m ∧ ∀ e', e'.display = m → e' = e := by
  unfold DID.fromKeysecure at h
  cases ha : Account.fromKeysecure E pw ks with
  | ok a => rw [ha] at h; cases h
  | error e =>
    rw [ha] at h
    cases h
    exact ⟨e, rfl, rfl, fun e' he => C65_account_error _ _ he⟩

/-- `C65_did_error`, `C65_account_error`, `C65_proof_error`, `C65_keysecure_error`: texts that look alike, of different errors. -/
example : (DIDError.display (.generateDocError "x".toList) ≠ DIDError.display (.generateDocError "y".toList)) ∧
    (AccountError.display (.decodeError "x".toList) ≠ AccountError.display (.decodeError "x ".toList)) ∧
    (ProofError.display (.proofGenerationError "x".toList) ≠ ProofError.display (.proofVerificationError "x".toList)) ∧
    KeySecureError.display (.decryptError "x".toList) ≠ KeySecureError.display (.decryptError "y".toList) :=
  ⟨fun h => absurd (C65_did_error _ _ h) (by decide), fun h => absurd (C65_account_error _ _ h) (by decide),
    fun h => absurd (C65_proof_error _ _ h) (by decide), fun h => absurd (C65_keysecure_error _ _ h) (by decide)⟩

example : DIDError.display .buildDocError = "error build DID DOC".toList ∧
    DIDError.display (.generateDocError []) = "error generate DID DOC: ".toList ∧
    KeySecureError.display (.decryptError []) ≠ KeySecureError.display .buildKeySecureError := by decide +kernel

/-- `C65_from_keysecure`: a wrong cipher text: the text names the step. -/
example : ∃ m, DID.fromKeysecure Toy.env "pw".toList ⟨"xyz".toList, [], ⟨1, 1, 1, 1⟩, []⟩ =
    .error (.invalidKeysecure m) ∧ m = "unable to decode: dependency error".toList := ⟨_, rfl, by decide +kernel⟩

/-! ### C66 -/

/-- C66: the text of query parameters: both members are always written, absent ones as `null`. -/
theorem C66_text {E : Env} (L : E.NumLaws) (p : Params) :
    jsonText E p.toTree = "{\"address\":".toList ++ (match p.address with
        | some a => quote a
        | none => "null".toList) ++ ",\"hl\":".toList ++ (match p.hl with
        | some h => quote h
        | none => "null".toList) ++ "}".toList := by
  obtain ⟨a, h⟩ := p
  rw [jsonText_eq L, params_tree]
  have e1 : quote "address".toList = "\"address\"".toList := by decide +kernel
  have e2 : quote "hl".toList = "\"hl\"".toList := by decide +kernel
  cases a <;> cases h <;>
    simp only [plainText, paramsObject, write, writeMembers, List.isEmpty_nil, List.isEmpty_cons, if_true, e1, e2] <;>
    simp [List.append_assoc]

/-- C66: which texts are read as query parameters, and as which. -/
theorem C66_reads (bs : Bytes) (p : Params) :
    fromSlice Params.dec bs = some p ↔ ∃ r, JsonText r bs ∧ ReadsParams r p :=
  fromSlice_iff (fun r hr x => readsParams_iff (d := 128) (by omega) r hr x) bs p

/-- C66: query parameters survive printing and parsing. -/
theorem C66_json_roundtrip {E : Env} (L : E.NumLaws) (p : Params) :
    fromSlice Params.dec (utf8 (jsonText E p.toTree)) = some p := by
  rw [utf8_eq, fromSlice_text L]
  exact Params.dec_toTree _ p 128 (by omega)

/-- C66: the parameters of a URI, stored as JSON and read again, give the same URI parts. -/
theorem C66_stored_uri {E : Env} (L : E.NumLaws) (uri : Str) :
    ∃ did p q, DID.parseUri uri = some (.ok (did, p)) ∧ fromSlice Params.dec (utf8 (jsonText E p.toTree)) = some q ∧
      q.address = param "address".toList uri ∧ q.hl = param "hl".toList uri ∧
      ∀ d : DID E, d.buildUri (some q) = d.buildUri (some p) :=
  ⟨_, _, _, parseUri_spec uri, C66_json_roundtrip L _, rfl, rfl, fun _ => rfl⟩

example : jsonText Toy.env (Params.toTree { address := some "a\"b".toList }) =
    "{\"address\":\"a\\\"b\",\"hl\":null}".toList := by decide +kernel

example : fromSlice Params.dec (utf8Encode "{\"x\":[1],\"hl\":\"h\"}".toList) = some { hl := some "h".toList } ∧
    fromSlice Params.dec (utf8Encode "[null,\"h\"]".toList) = some { hl := some "h".toList } ∧
    fromSlice Params.dec (utf8Encode "{\"address\":1}".toList) = none ∧
    fromSlice Params.dec (utf8Encode "{\"hl\":\"h\",\"hl\":\"h\"}".toList) = none := by decide +kernel

end Verif.Props
