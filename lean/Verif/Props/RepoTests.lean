import Verif.Props.Texts
import Verif.Props.Hashlink
import Verif.Props.Secure
import Verif.Props.Did
import Verif.Props.Tamper

/-
The unit tests of /repo carried over to the model, one `example` each, with the values and error texts the tests
expect. They are tests of the model against what the authors of the code say it does, not proofs of properties.
Keys drawn at random in a test are arbitrary here, and where a test does not depend on the primitives neither does
the example. Not carried over: the parts of tests that look into a dependency (length 64 of an Ed25519 signature,
components of a parsed multiaddr, for which see C84).
-/

namespace Verif.Props
open Verif Spec

/-! ### core/src/hashlink.rs -/

/-- `FakeMessage`, core/src/hashlink.rs:58-69. -/
def fakeMessage (E : Env) (message : Str) : Except DIDError JSONValue :=
  .ok ⟨jsonText E (.obj [("message".toList, .str message)])⟩

/-- test_generate_hl_from_json, core/src/hashlink.rs:73-83 -/
example {E : Env} (H : E.HashLaws) : ∃ encoded, Hashlink.generateFromJson E (fakeMessage E "hello world".toList) =
    .ok encoded ∧ 'z' ∈ encoded := by
  obtain ⟨t, h, _⟩ := (C20_roundtrip H (fakeMessage E "hello world".toList)).1 _ rfl
  obtain ⟨b, rfl, _⟩ := (C23_shape H _ t).mp h
  exact ⟨_, h, by simp⟩

/-- test_verify_hl_from_json, core/src/hashlink.rs:85-96 -/
example {E : Env} (H : E.HashLaws) : ∃ encoded, Hashlink.generateFromJson E (fakeMessage E "hello world".toList) =
    .ok encoded ∧ Hashlink.verifyFromJson E (fakeMessage E "hello world".toList) encoded = .ok () :=
  (C20_roundtrip H _).1 _ rfl

/-- test_verify_hl_invalid, core/src/hashlink.rs:98-122 -/
example : ∃ encoded, Hashlink.generateFromJson Toy.env (fakeMessage Toy.env "hello world".toList) = .ok encoded ∧
    ∃ e, Hashlink.verifyFromJson Toy.env (fakeMessage Toy.env "invalid".toList) encoded = .error (.hashLinkError e) ∧
      DIDError.display (.hashLinkError e) = "error hashlink: invalid hashlink".toList := by
  refine ⟨_, rfl, "invalid hashlink".toList, by decide +kernel, by decide +kernel⟩

/-! ### core/src/doc/mod.rs -/

/-- core/src/doc/mod.rs:238-243 -/
def testPrimary : Primary :=
  { id := "id".toList, controller := "controller".toList, verificationType := "verification".toList,
    multibase := "multibase".toList }

/-- test_add_assertion, core/src/doc/mod.rs:236-262 -/
example {E : Env} (L : E.NumLaws) : ∃ json doc,
    (((Doc.generate "test".toList).addAssertion testPrimary).addAssertion testPrimary).toJson E = .ok json ∧
    fromSlice Doc.dec json.toBytes = some doc ∧ doc.authentication = none ∧ doc.capDelegate = none ∧
    doc.capInvoke = none ∧ doc.assertion.map List.length = some 2 := by
  obtain ⟨t, h1, h2⟩ := C18_json_roundtrip L
    (((Doc.generate "test".toList).addAssertion testPrimary).addAssertion testPrimary)
  exact ⟨t, _, h1, h2, rfl, rfl, rfl, rfl⟩

/-- test_validation_error, core/src/doc/mod.rs:264-271 -/
example : ∃ e, Doc.validate { Doc.generate "test".toList with context := [] } = .error e := ⟨_, rfl⟩

/-- test_validation_success, core/src/doc/mod.rs:273-278 -/
example : (Doc.generate "test".toList).validate = .ok () := rfl

/-- test_decode_public_key_eddsa, core/src/doc/mod.rs:280-307 -/
example {E : Env} (L : E.EdLaws) (P : E.PemLaw) (seed : E.EdSeed) (pem : Str)
    (hp : E.edPem (Verification.Key.new E seed).generate.privKey = .ok pem) :
    ∃ k kp, (Primary.mk "id".toList "controller".toList VERIFICATION_TYPE_ED25519
      (Verification.Key.new E seed).generate.pubKey).decodePubKey E = .ok (.edDSA k) ∧
      E.edOfPem pem = .ok kp ∧ k = E.edPub kp := by
  refine ⟨E.edPub (E.edGenerate seed), E.edGenerate seed, ?_, P _ _ hp, rfl⟩
  rw [C15_eddsa]
  exact ⟨rfl, _, isKeyText_holds ⟨_, hexEncode_spec _, by rw [utf8_eq]; exact multibaseEncode58_spec _⟩, L.pub_bytes _⟩

/-- test_decode_public_key_ecdh, core/src/doc/mod.rs:309-334 -/
example {E : Env} (L : E.DhLaw) (seed : E.DhSeed) :
    (Primary.mk "id".toList "controller".toList VERIFICATION_TYPE_X25519
      (Agreement.Key.new E seed).generate.pubKey).decodePubKey E =
      .ok (.ecdh (E.dhPub (Agreement.Key.new E seed).generate.privKey)) := by
  rw [C15_ecdh]
  exact ⟨rfl, _, isKeyText_holds ⟨_, hexEncode_spec _, by rw [utf8_eq]; exact multibaseEncode58_spec _⟩, L _⟩

/-- test_decode_public_key_invalid_type, core/src/doc/mod.rs:336-350 -/
example (E : Env) : ∃ m, (Primary.mk "id".toList "controller".toList "unknown".toList []).decodePubKey E =
    .error (.decodePubKeyError m) := ⟨_, rfl⟩

/-! ### core/src/account/mod.rs -/

/-- test_generate_build_pem, core/src/account/mod.rs:128-133 -/
example (seed : UInt8) : ∃ pem, (Account.new Toy.env seed).buildPem = .ok pem ∧ pem ≠ [] :=
  ⟨hexEncode [seed], rfl, by simp [hexEncode]⟩

/-- test_parse_account_from_encoded, core/src/account/mod.rs:136-147 -/
example {E : Env} (P : E.PemLaw) (seed : E.EdSeed) (pem : Str) (h : (Account.new E seed).buildPem = .ok pem) :
    ∃ b, Account.fromPem E pem = .ok b ∧ E.edPubBytes b.pubkey = E.edPubBytes (Account.new E seed).pubkey := by
  obtain ⟨b, h1, _, _, h2, _⟩ := C02_pem_roundtrip P _ _ h
  exact ⟨b, h1, by rw [h2]⟩

/-- test_parse_account_error_invalid_input, core/src/account/mod.rs:150-154 -/
example : ∃ m, Account.fromPem Toy.env "invalid".toList = .error (.decodePEMError m) := ⟨_, rfl⟩

/-- test_build_from_keysecure, core/src/account/mod.rs:157-175 -/
example {E : Env} (P : E.PemLaw) (A : E.AeadLaw) (seed : E.EdSeed) (r : ExportRandom) (ks : KeySecure)
    (h : (Verification.Pairs.mk (E := E) [] (Account.new E seed).privkey).buildKeysecure r "password".toList = .ok ks) :
    ∃ b, Account.fromKeysecure E "password".toList ks = .ok b ∧ E.edPem b.privkey = E.edPem (Account.new E seed).privkey :=
  ⟨_, (C03_keysecure_restore P A (Account.new E seed) [] r _ ks h).1, rfl⟩

/-- test_build_from_keysecure_invalid_password, core/src/account/mod.rs:178-189 -/
example : ∃ ks, (Verification.Pairs.mk (E := Toy.env) [] (Account.new Toy.env (9 : UInt8)).privkey).buildKeysecure
    toyRandom "password".toList = .ok ks ∧ ∃ e, Account.fromKeysecure Toy.env "invalid".toList ks = .error e := by
  refine ⟨_, rfl, ?_⟩
  exact ⟨_, rfl⟩

/-! ### core/src/keys -/

/-- test_generate_keypairs, core/src/keys/verification.rs:93-97 -/
example (seed : UInt8) : (Verification.Key.new Toy.env seed).generate.isValid = true := rfl

/-- test_decode_public_key, core/src/keys/verification.rs:100-117 -/
example {E : Env} (L : E.EdLaws) (P : E.PemLaw) (seed : E.EdSeed) (pem : Str)
    (hp : E.edPem (Verification.Key.new E seed).generate.privKey = .ok pem) :
    ∃ kp, E.edOfPem pem = .ok kp ∧ (Verification.Key.new E seed).generate.decodePubKey = .ok (E.edPub kp) :=
  ⟨_, P _ _ hp, by
    unfold Verification.Pairs.decodePubKey Env.mbDecode Verification.Key.generate Verification.Key.new
    simp [utf8Decode_encode, hexDecode_encode, L.pub_bytes]⟩

/-- test_generate, core/src/keys/agreement.rs:89-93 -/
example (E : Env) (seed : E.DhSeed) : (Agreement.Key.new E seed).generate.isValid = true := rfl

/-- test_decode_public_key, core/src/keys/agreement.rs:96-105 -/
example {E : Env} (L : E.DhLaw) (seed : E.DhSeed) :
    (Agreement.Key.new E seed).generate.decodePublicKey = .ok (E.dhPub (Agreement.Key.new E seed).generate.privKey) := by
  unfold Agreement.Pairs.decodePublicKey Env.mbDecode Agreement.Key.generate Agreement.Key.new
  simp [utf8Decode_encode, hexDecode_encode, L _]

/-! ### core/src/did/mod.rs -/

/-- test_generate, core/src/did/mod.rs:137-145 -/
example {E : Env} (H : E.HashLaws) (seed : E.EdSeed) : ∃ i, (DID.new E seed).identity = .ok i ∧
    DID_SYNTAX_SCHEME <:+: i.value ∧ DID_SYNTAX_METHOD <:+: i.value := by
  obtain ⟨i, _, payload, h, _, _, _, hv, _⟩ := C01_identity_syntax H (DID.new E seed)
  exact ⟨i, h, ⟨[], ":prople:".toList ++ payload, by rw [hv]; simp [DID_SYNTAX_SCHEME]⟩,
    ⟨"did:".toList, ":".toList ++ payload, by rw [hv]; simp [DID_SYNTAX_METHOD]⟩⟩

/-- test_regenerate_from_pem, core/src/did/mod.rs:148-159 -/
example {E : Env} (P : E.PemLaw) (seed : E.EdSeed) (pem : Str) (h : (DID.new E seed).account.buildPem = .ok pem) :
    ∃ d, DID.fromPem E pem = .ok d ∧ d.identity = (DID.new E seed).identity := by
  obtain ⟨b, _, h1, _, _, _, h2⟩ := C02_pem_roundtrip P _ _ h
  exact ⟨⟨b⟩, h1, h2⟩

/-- test_get_account, core/src/did/mod.rs:162-174 -/
example {E : Env} (H : E.HashLaws) (seed : E.EdSeed) : ∃ i a, (DID.new E seed).identity = .ok i ∧
    i.account = .ok a ∧ 'z' ∈ a := by
  obtain ⟨i, hex, payload, h, _, _, hm, _, _, _, _, _, _, ha, _⟩ := C01_identity_syntax H (DID.new E seed)
  obtain ⟨b, rfl, _⟩ := hm
  exact ⟨i, _, h, ha, by simp⟩

/-- test_generate_identity_doc, core/src/did/mod.rs:177-189 -/
example {E : Env} (L : E.NumLaws) (seed : E.EdSeed) (s1 s2 : MethodSeed E) : ∃ i json,
    (DID.new E seed).identity = .ok i ∧
    ((i.buildAuthMethod s1).buildAssertionMethod s2).toDoc.toJson E = .ok json ∧ json.toString' ≠ [] := by
  refine ⟨_, _, rfl, C49_doc_text L _, ?_⟩
  show plainText E _ ≠ []
  simp [plainText, docObject, object, write]

/-- test_generate_identity_key_pairs, core/src/did/mod.rs:192-204 -/
example (seed : UInt8) (s1 s2 : MethodSeed Toy.env) : ∃ i out json, (DID.new Toy.env seed).identity = .ok i ∧
    ((i.buildAuthMethod s1).buildAssertionMethod s2).buildPrivateKeys ⟨toyRandom, toyRandom, toyRandom, toyRandom⟩
      "test".toList = .ok out ∧ out.toJson toyCodec = .ok json := ⟨_, _, _, rfl, rfl, rfl⟩

/-- test_build_did_uri_with_params, core/src/did/mod.rs:207-222 -/
example (E : Env) (seed : E.EdSeed) : ∃ i, (DID.new E seed).identity = .ok i ∧
    (DID.new E seed).buildUri (some { address := some "test-addr".toList, hl := some "test-hl".toList }) =
      .ok (i.value ++ "?".toList ++ "address=test-addr&hl=test-hl".toList) := by
  obtain ⟨i, h, _, _, _, _, h3⟩ := C10_build_uri (DID.new E seed)
  refine ⟨i, h, (h3 _ _).trans ?_⟩
  simp [List.append_assoc]

/-- test_build_did_uri_without_params, core/src/did/mod.rs:225-232 -/
example (E : Env) (seed : E.EdSeed) : ∃ i, (DID.new E seed).identity = .ok i ∧
    (DID.new E seed).buildUri none = .ok i.value := ⟨_, rfl, rfl⟩

/-- test_rebuild_did_from_keysecure, core/src/did/mod.rs:235-257 -/
example {E : Env} (P : E.PemLaw) (A : E.AeadLaw) (seed : E.EdSeed) (r : ExportRandom) (ks : KeySecure)
    (h : (Verification.Pairs.mk (E := E) [] (DID.new E seed).account.privkey).buildKeysecure r "password".toList = .ok ks) :
    ∃ d, DID.fromKeysecure E "password".toList ks = .ok d ∧ d.account.buildPem = (DID.new E seed).account.buildPem ∧
      d.identity = (DID.new E seed).identity :=
  ⟨_, (C03_keysecure_restore P A _ [] r _ ks h).2.1, rfl, rfl⟩

/-- test_rebuild_did_from_keysecure_invalid_password, core/src/did/mod.rs:260-272 -/
example : ∃ ks, (Verification.Pairs.mk (E := Toy.env) [] (DID.new Toy.env (9 : UInt8)).account.privkey).buildKeysecure
    toyRandom "password".toList = .ok ks ∧ ∃ e, DID.fromKeysecure Toy.env "invalid".toList ks = .error e :=
  ⟨_, rfl, _, rfl⟩

/-- test_parse_uri_with_full_queries, core/src/did/mod.rs:275-284 -/
example : DID.parseUri "did:prople:test?address=test-addr&hl=test-hl".toList =
    some (.ok ("did:prople:test".toList, { address := some "test-addr".toList, hl := some "test-hl".toList })) := by
  decide +kernel

/-- test_parse_uri_with_single_query, core/src/did/mod.rs:287-294 -/
example : DID.parseUri "did:prople:test?address=test-svc".toList =
    some (.ok ("did:prople:test".toList, { address := some "test-svc".toList, hl := none })) := by decide +kernel

/-- test_parse_uri_without_queries, core/src/did/mod.rs:297-306 -/
example : DID.parseUri "did:prople:test".toList =
    some (.ok ("did:prople:test".toList, { address := none, hl := none })) := by decide +kernel

/-! ### core/src/did/query.rs -/

/-- test_build_query_string, core/src/did/query.rs:53-65 -/
example : Params.buildQuery { address := some "test-addr".toList, hl := some "test-hl".toList } =
    some "address=test-addr&hl=test-hl".toList := by decide +kernel

/-- test_build_query_one_param, core/src/did/query.rs:68-75 -/
example : Params.buildQuery { address := some "test-addr".toList } = some "address=test-addr".toList := by
  decide +kernel

/-- test_build_query_empty, core/src/did/query.rs:78-82 -/
example : Params.buildQuery {} = none := rfl

/-- test_parse_invalid_multiaddr, core/src/did/query.rs:85-91 -/
example : ∃ e, Params.parseMultiaddr Toy.env { address := some "invalid".toList } = .error e := ⟨_, rfl⟩

/-- test_parse_valid_multiaddr, core/src/did/query.rs:94-106 -/
example : ∃ a, Params.parseMultiaddr Toy.env { address := some "/ip4/127.0.0.1/tcp/1234".toList } = .ok (some a) :=
  ⟨_, rfl⟩

/-! ### core/src/verifiable/vc.rs -/

/-- core/src/verifiable/vc.rs:165-168 -/
def testVC (E : Env) : VC E :=
  (((VC.new E "id".toList "issuer".toList).addContext "context1".toList).addContext "context2".toList).addType
    "VerifiableCredential".toList

/-- `FakeCredentialSubject`, core/src/verifiable/vc.rs:149-161, 170-178. -/
def testSubject (E : Env) : Value E :=
  ⟨.obj [("connection".toList, .obj [("user_agent".toList, .str "test_agent".toList),
    ("user_did".toList, .str "test_did".toList)]), ("id".toList, .str "id".toList)], by
    refine ⟨?_, ?_⟩
    all_goals simp [Json.Sorted, Json.SortedMembers, KeysSorted, strLt]⟩

/-- test_generate_credential, core/src/verifiable/vc.rs:163-188 -/
example : ((testVC Toy.env).setCredential (testSubject Toy.env)).toJson = .ok ⟨("{\"@context\":[\"context1\",\"context2\"]," ++
    "\"type\":[\"VerifiableCredential\"],\"credentialSubject\":{\"connection\":{\"user_agent\":\"test_agent\"," ++
    "\"user_did\":\"test_did\"},\"id\":\"id\"},\"id\":\"id\",\"issuer\":\"issuer\"}").toList⟩ := by
  decide +kernel

/-- test_generate_credential_jcs, core/src/verifiable/vc.rs:191-213 -/
example (E : Env) : ∃ t, ((testVC E).setCredential (testSubject E)).toJcs = .ok t := ⟨_, rfl⟩

/-- test_generate_empty_context, core/src/verifiable/vc.rs:216-225 -/
example (E : Env) : (VC.new E "id".toList "issuer".toList).toJson =
    .error (.generateVCError "vc_error: empty context".toList) := rfl

/-- test_generate_empty_types, core/src/verifiable/vc.rs:228-240 -/
example (E : Env) : (((VC.new E "id".toList "issuer".toList).addContext "context1".toList).addContext
    "context2".toList).toJson = .error (.generateVCError "vc_error: empty types".toList) := rfl

/-- test_generate_empty_credential, core/src/verifiable/vc.rs:243-257 -/
example (E : Env) : (testVC E).toJson =
    .error (.generateVCError "vc_error: credential should not be null".toList) := rfl

/-! ### core/src/verifiable/vp.rs -/

/-- core/src/verifiable/vp.rs:153-159 -/
def testVP (E : Env) : VP E :=
  ((((VP.new E).addContext "context1".toList).addContext "context2".toList).addType "type".toList).addCredential
    (VC.new E "id1".toList "issuer".toList)

/-- test_generate_json, core/src/verifiable/vp.rs:151-166 -/
example : (testVP Toy.env).toJson = .ok ⟨("{\"@context\":[\"context1\",\"context2\"],\"type\":[\"type\"]," ++
    "\"verifiableCredential\":[{\"@context\":[],\"type\":[],\"credentialSubject\":null,\"id\":\"id1\"," ++
    "\"issuer\":\"issuer\"}]}").toList⟩ := by
  decide +kernel

/-- test_generate_jcs, core/src/verifiable/vp.rs:168-180 -/
example (E : Env) : ∃ t, (testVP E).toJcs = .ok t := ⟨_, rfl⟩

/-- test_validate_failed_context_empty, core/src/verifiable/vp.rs:182-191 -/
example (E : Env) : (VP.new E).toJson = .error (.generateJSONError "vp: empty context".toList) := rfl

/-- test_validate_failed_types_empty, core/src/verifiable/vp.rs:193-204 -/
example (E : Env) : ((VP.new E).addContext "context1".toList).toJson =
    .error (.generateJSONError "vp: empty types".toList) := rfl

/-- test_validate_failed_credential_empty, core/src/verifiable/vp.rs:206-218 -/
example (E : Env) : (((VP.new E).addContext "context1".toList).addType "type".toList).toJson =
    .error (.generateJSONError "vp: empty credentials".toList) := rfl

/-! ### core/src/context/ext/user_connection.rs -/

/-- test_build_user_connection_credential_json, core/src/context/ext/user_connection.rs:71-78 -/
example : UserConnectionCredential.default.toJson Toy.env =
    .ok ⟨("{\"UserConnectionCredential\":{\"@context\":{\"userAgentAddress\":\"https://schema.org/identifier\"," ++
      "\"userDid\":\"https://www.w3.org/2018/credentials/#VerifiableCredential\"}}}").toList⟩ := by
  decide +kernel

/-! ### core/src/verifiable/proof/mod.rs -/

/-- test_proof_default, core/src/verifiable/proof/mod.rs:250-260 -/
example {E : Env} (L : E.NumLaws) : ∃ p, fromSlice Proof.dec (utf8 (jsonText E
    ((Proof.default.setPurpose "assertionMethod".toList).setMethod "testing".toList).toTree)) = some p ∧
      p.proofPurpose = .assertionMethod ∧ p.verificationMethod = "testing".toList := by
  refine ⟨(Proof.default.setPurpose "assertionMethod".toList).setMethod "testing".toList, ?_, by decide, rfl⟩
  rw [utf8_eq, fromSlice_text L]
  exact Proof.dec_toTree _ _ 128 (by omega)

/-! ### Mocks of core/src/verifiable/proof/{config,transform,eddsa,integrity}.rs -/

/-- What a mocked document answers. -/
structure MockData where
  jcs : Except DIDError Str := .error .invalidDID
  proof : Option Proof := none

/-- `MockFakeProofable`; the index is the answer of the static method `parse_json_bytes`. -/
structure MockDoc (parsed : Except ProofError MockData) where
  data : MockData

instance (r : Except ProofError MockData) : Proofable (MockDoc r) where
  toJson _ := .ok ⟨"hello world".toList⟩
  toJcs d := d.data.jcs
  validate _ := .ok ()
  getProof d := d.data.proof
  removeProof d := ⟨{ d.data with proof := none }⟩
  setupProof d p := ⟨{ d.data with proof := some p }⟩
  parseJsonBytes _ := r.map MockDoc.mk

/-- `MockFakeProofOptions`: the answers of its four methods. -/
structure MockOptions where
  type : Except ProofError Unit := .ok ()
  cryptosuite : Except ProofError Unit := .ok ()
  created : Except ProofError Unit := .ok ()
  jcs : Except DIDError Str := .error .invalidDID

instance : ProofOptionsValidator MockOptions := ⟨MockOptions.type, MockOptions.cryptosuite⟩
instance (E : Env) : ProofConfigValidator E MockOptions := ⟨MockOptions.created, MockOptions.jcs⟩

/-- A mocked document with nothing else set. -/
abbrev mockDoc (d : MockData) : MockDoc (.error (.proofVerificationError [])) := ⟨d⟩

/-! ### core/src/verifiable/proof/config.rs -/

/-- test_invalid_type, core/src/verifiable/proof/config.rs:133-160 -/
example (E : Env) : generateProofConfig E ({ type := .error (.proofGenerationError "invalid type".toList) } : MockOptions) =
    .error (.proofGenerationError "invalid type".toList) := rfl

/-- test_invalid_cryptosuite, core/src/verifiable/proof/config.rs:163-194 -/
example (E : Env) : generateProofConfig E
    ({ cryptosuite := .error (.proofGenerationError "invalid cryptosuite".toList) } : MockOptions) =
    .error (.proofGenerationError "invalid cryptosuite".toList) := rfl

/-- test_invalid_created, core/src/verifiable/proof/config.rs:197-231 -/
example (E : Env) : generateProofConfig E
    ({ created := .error (.proofGenerationError "invalid created at".toList) } : MockOptions) =
    .error (.proofGenerationError "invalid created at".toList) := rfl

/-- test_error_jcs, core/src/verifiable/proof/config.rs:238-274: the text contains "error to jcs" -/
example (E : Env) : ∃ m, generateProofConfig E
    ({ jcs := .error (.generateJSONJCSError "error to jcs".toList) } : MockOptions) = .error (.proofGenerationError m) ∧
      "error to jcs".toList <:+: m := ⟨_, rfl, by decide +kernel⟩

/-- test_success, core/src/verifiable/proof/config.rs:277-303 -/
example (E : Env) : ∃ c, generateProofConfig E ({ jcs := .ok "testing".toList } : MockOptions) = .ok c := ⟨_, rfl⟩

/-! ### core/src/verifiable/proof/transform.rs -/

/-- test_invalid_type, core/src/verifiable/proof/transform.rs:184-206 -/
example : transformDocument (mockDoc {})
    ({ type := .error (.proofGenerationError "invalid type".toList) } : MockOptions) =
    .error (.proofGenerationError "invalid type".toList) := rfl

/-- test_invalid_cryptosuite, core/src/verifiable/proof/transform.rs:209-241 -/
example : transformDocument (mockDoc {})
    ({ cryptosuite := .error (.proofGenerationError "invalid cryptosuite".toList) } : MockOptions) =
    .error (.proofGenerationError "invalid cryptosuite".toList) := rfl

/-- test_error_to_jcs, core/src/verifiable/proof/transform.rs:247-279 -/
example : ∃ m, transformDocument (mockDoc { jcs := .error (.generateJSONJCSError "error jcs".toList) })
    ({} : MockOptions) = .error (.proofGenerationError m) ∧ "error jcs".toList <:+: m := ⟨_, rfl, by decide +kernel⟩

/-- test_success, core/src/verifiable/proof/transform.rs:286-308 -/
example : ∃ c, transformDocument (mockDoc { jcs := .ok "jcs".toList }) ({} : MockOptions) = .ok c ∧
    c.text = "jcs".toList := ⟨_, rfl, rfl⟩

/-! ### core/src/verifiable/proof/hash.rs -/

/-- test_error_hash_document, core/src/verifiable/proof/hash.rs:73-96 -/
example (c : Except ProofError Bytes) : ∃ m,
    generateHash (.error (.proofGenerationError "error document hash".toList)) c = .error (.proofGenerationError m) ∧
      "error document hash".toList <:+: m := ⟨_, rfl, by decide +kernel⟩

/-- test_error_proof_config, core/src/verifiable/proof/hash.rs:99-128 -/
example : ∃ m, generateHash (.ok (utf8 "hello doc".toList)) (.error (.proofGenerationError "error config hash".toList)) =
    .error (.proofGenerationError m) ∧ "error config hash".toList <:+: m := ⟨_, rfl, by decide +kernel⟩

/-- test_success, core/src/verifiable/proof/hash.rs:134-161 -/
example : ∃ out, generateHash (.ok (utf8 "hello doc".toList)) (.ok (utf8 "hello config".toList)) = .ok out ∧
    out.bytes = utf8 "hello config".toList ++ utf8 "hello doc".toList := ⟨_, rfl, rfl⟩

/-! ### core/src/verifiable/proof/{serialize,verifier}.rs -/

/-- test_serialized_and_verify, core/src/verifiable/proof/serialize.rs:79-93, and test_verified,
core/src/verifiable/proof/verifier.rs:42-56 -/
example {E : Env} (L : E.EdLaws) (kp : E.EdKP) :
    E.edVerify (E.edPub kp) (utf8 "hello world".toList)
      (serializeHashedData E ⟨utf8 "hello world".toList⟩ kp).toHex = .ok true := L.verify_sign _ _

/-- test_verified_error, core/src/verifiable/proof/verifier.rs:28-36. The toy scheme answers `false` instead of an
error. -/
example (kp : UInt8) : Toy.env.edVerify (Toy.env.edPub kp) (utf8 "hello world".toList)
    (ProofByte.mk (utf8 "invalid".toList)).toHex ≠ .ok true := by
  have h : (hexEncode (utf8 "invalid".toList) == hexEncode (kp :: utf8 "hello world".toList)) = false := by
    rw [beq_eq_false_iff_ne]
    intro h
    have := congrArg List.length h
    revert this
    rw [hexEncode_length, hexEncode_length, List.length_cons,
      show (utf8 "invalid".toList).length = 7 by decide +kernel,
      show (utf8 "hello world".toList).length = 11 by decide +kernel]
    omega
  show Toy.env.edVerify kp (utf8 "hello world".toList) (hexEncode (utf8 "invalid".toList)) ≠ _
  unfold Toy.env
  simp only [h]
  split <;> simp

/-! ### core/src/verifiable/proof/eddsa.rs -/

/-- Options as in core/src/verifiable/proof/eddsa.rs:219-222; the time is a fixed one. -/
def testOptions : Proof :=
  ((Proof.default.setTyp DEFAULT_PROOF_TYPE).setCryptosuite DEFAULT_PROOF_CRYPTOSUITE).setCreated
    "2024-01-01 00:00:00 UTC".toList

theorem testOptions_good : GoodOptions Toy.env testOptions :=
  ⟨by decide, by decide, "2024-01-01 00:00:00 UTC".toList, rfl, rfl⟩

/-- test_error_proof_config, core/src/verifiable/proof/eddsa.rs:194-214 -/
example (E : Env) (kp : E.EdKP) : EddsaJcs2022.createProof E kp (mockDoc {}) Proof.default =
    .error (.proofGenerationError "invalid proof type".toList) := rfl

/-- test_error_transform_document, core/src/verifiable/proof/eddsa.rs:217-248 -/
example (kp : UInt8) : ∃ m, EddsaJcs2022.createProof Toy.env kp
    (mockDoc { jcs := .error (.generateJSONJCSError "error jcs".toList) }) testOptions =
      .error (.proofGenerationError m) ∧ "error jcs".toList <:+: m := ⟨_, rfl, by decide +kernel⟩

/-- test_create_proof_success, core/src/verifiable/proof/eddsa.rs:253-333 -/
example {E : Env} (L : E.EdLaws) (kp : E.EdKP) (opts : Proof) (cfg : ProofConfig)
    (hc : generateProofConfig E opts = .ok cfg) : ∃ p d h sig,
    EddsaJcs2022.createProof E kp (mockDoc { jcs := .ok "fake-jcs".toList }) opts = .ok p ∧ p.proofValue ≠ [] ∧
    transformDocument (mockDoc { jcs := .ok "fake-jcs".toList }) opts = .ok d ∧
    generateHash (d.hash E) (cfg.hash E) = .ok h ∧ p.proofValue = (serializeHashedData E h kp).encode ∧
    E.mbDecode p.proofValue = some (.base58Btc, sig) ∧ verifySignature E (E.edPub kp) h ⟨sig⟩ = .ok true := by
  have ht : transformDocument (mockDoc { jcs := .ok "fake-jcs".toList }) opts = .ok ⟨"fake-jcs".toList⟩ := by
    rw [generateProofConfig_eq] at hc
    rw [transformDocument_eq]
    cases h1 : opts.validateType with
    | error e => rw [h1] at hc; cases hc
    | ok _ => cases h2 : opts.validateCryptosuite with
      | error e => rw [h1, h2] at hc; cases hc
      | ok _ => rfl
  refine ⟨opts.setSignatureAsString (serializeHashedData E
      ⟨E.sha256 (utf8Encode cfg.text) ++ E.sha256 (utf8Encode "fake-jcs".toList)⟩ kp).encode, _, _,
    E.edSign kp (E.sha256 (utf8Encode cfg.text) ++ E.sha256 (utf8Encode "fake-jcs".toList)), ?_, ?_, ht, rfl, rfl,
    ?_, ?_⟩
  · unfold EddsaJcs2022.createProof
    rw [hc, ht]
    rfl
  · show multibaseEncode58 _ ≠ []
    simp [multibaseEncode58]
  · exact (mbDecode_iff _ _ _ _).mpr (.base58 (multibaseEncode58_spec _))
  · show verifySignature E _ _ ⟨E.edSign kp _⟩ = _
    unfold verifySignature ProofByte.toHex
    simp only [L.verify_sign]

/-- The options of that test pass. -/
example : ∃ cfg, generateProofConfig Toy.env testOptions = .ok cfg := ⟨_, rfl⟩

/-- core/src/verifiable/proof/eddsa.rs:349-352 -/
def testVC2 (E : Env) : VC E :=
  (((VC.new E "id".toList "issuer".toList).addContext "context".toList).addType "type".toList).setCredential
    ⟨.str "credential".toList, trivial⟩

/-- test_verify_vc_success, core/src/verifiable/proof/eddsa.rs:342-370 -/
example {E : Env} (J : E.JcsLaws) (L : E.EdLaws) (kp : E.EdKP) (opts : Proof) (hg : GoodOptions E opts)
    (hv : opts.proofValue = []) :
    ∃ p r, EddsaJcs2022.createProof E kp (testVC2 E) opts = .ok p ∧
      EddsaJcs2022.verifyProof E (E.edPub kp) (Proofable.setupProof (testVC2 E) p) = .ok r ∧ r.verified = true := by
  have hj : Proofable.toJcs (testVC2 E) = .ok (jcsText E (testVC2 E).toTree) := rfl
  generalize jcsText E (testVC2 E).toTree = t at hj
  have hc := (createProof_cases J kp (testVC2 E) opts).1 hg t hj
  obtain ⟨oi, ot, op, ov, om, oc, oe, os⟩ := opts
  simp only at hv
  subst hv
  generalize hsig : multibaseEncode58 _ = sig at hc
  have hs := ((suiteVerify_cases J (E.edPub kp) (Proofable.setupProof (testVC2 E) ⟨oi, ot, op, sig, om, oc, oe, os⟩)
      _ rfl).2 _ _ ((mbDecode_iff _ _ _ _).mpr (.base58 (hsig ▸ multibaseEncode58_spec _)))).2
      ⟨hg.1, hg.2, hg.3⟩ t hj
  rw [show unvalued _ = ⟨oi, ot, op, [], om, oc, oe, os⟩ from rfl, L.verify_sign] at hs
  exact ⟨_, _, hc, hs, rfl⟩

/-! ### core/src/verifiable/proof/integrity.rs -/

/-- `MockFakeCryptoSuite`: its two answers. -/
def mockSuite (E : Env) {r : Except ProofError MockData} (c : Except ProofError Proof)
    (v : Except ProofError (VerificationResult (MockDoc r))) : CryptoSuite E (MockDoc r) :=
  ⟨fun _ _ _ => c, fun _ _ => v⟩

/-- A mocked suite and document for `add_proof`. -/
def mockAdd (E : Env) (kp : E.EdKP) (c : Except ProofError Proof) :
    Except ProofError (MockDoc (.error (.proofVerificationError []))) :=
  (Integrity.new (mockSuite E c (.error (.proofVerificationError [])))).addProof kp ⟨{}⟩ Proof.default

/-- test_error_create_proof_error, core/src/verifiable/proof/integrity.rs:208-248 -/
example (E : Env) (kp : E.EdKP) : mockAdd E kp (.error (.proofGenerationError "unable to create proof".toList)) =
    .error (.proofGenerationError "unable to create proof".toList) := rfl

/-- test_validation_error_missing_type, core/src/verifiable/proof/integrity.rs:253-292 -/
example (E : Env) (kp : E.EdKP) : ∃ m, mockAdd E kp (.ok Proof.default) = .error (.proofGenerationError m) ∧
    "missing type".toList <:+: m := ⟨_, rfl, by decide +kernel⟩

/-- test_validation_error_unknown_purpose, core/src/verifiable/proof/integrity.rs:294-336 -/
example (E : Env) (kp : E.EdKP) : ∃ m, mockAdd E kp
    (.ok ((Proof.default.setTyp "fake-type".toList).setMethod "fake-verification-method".toList)) =
      .error (.proofGenerationError m) ∧ "unknown proof purpose".toList <:+: m := ⟨_, rfl, by decide +kernel⟩

/-- core/src/verifiable/proof/integrity.rs:345-347, 684-686 -/
def testProof (purpose : ProofPurpose) : Proof :=
  ((Proof.new "fake-id".toList).setMethod "fake-method".toList).setPurpose purpose.display

/-- test_success_create_proof, core/src/verifiable/proof/integrity.rs:343-405 -/
example (E : Env) (kp : E.EdKP) : ∃ d, mockAdd E kp (.ok (testProof .assertionMethod)) = .ok d ∧
    Proofable.getProof d = some (testProof .assertionMethod) := ⟨_, rfl, rfl⟩

/-- `verify_proof` with a mocked parser and a mocked suite. -/
def mockVerify (E : Env) (pub : E.EdPub) (parsed : Except ProofError MockData)
    (v : Except ProofError (VerificationResult (MockDoc parsed))) :
    Except ProofError (VerificationResult (MockDoc parsed)) :=
  (Integrity.new (mockSuite E (.ok Proof.default) v)).verifyProof pub (utf8 "hello world".toList) .assertionMethod

/-- test_missing_type, core/src/verifiable/proof/integrity.rs:420-471 -/
example (E : Env) (pub : E.EdPub) (v) : ∃ m, mockVerify E pub (.ok { proof := some Proof.default }) v =
    .error (.proofVerificationError m) ∧ "missing type".toList <:+: m := ⟨_, rfl, by decide +kernel⟩

/-- test_unknown_purpose, core/src/verifiable/proof/integrity.rs:473-527 -/
example (E : Env) (pub : E.EdPub) (v) : ∃ m, mockVerify E pub (.ok ⟨.error .invalidDID,
    some ((Proof.default.setTyp "fake-type".toList).setMethod "fake-method".toList)⟩) v =
    .error (.proofVerificationError m) ∧ "unknown proof purpose".toList <:+: m := ⟨_, rfl, by decide +kernel⟩

/-- test_error_parse_doc_bytes, core/src/verifiable/proof/integrity.rs:530-575 -/
example (E : Env) (pub : E.EdPub) (v) : mockVerify E pub
    (.error (.proofVerificationError "error parse doc bytes".toList)) v =
    .error (.proofVerificationError "error parse doc bytes".toList) := rfl

/-- test_error_missing_proof_doc, core/src/verifiable/proof/integrity.rs:577-621 -/
example (E : Env) (pub : E.EdPub) (v) : mockVerify E pub (.ok {}) v =
    .error (.proofVerificationError "missing document proof".toList) := rfl

/-- test_error_mismatch_proof_purpose, core/src/verifiable/proof/integrity.rs:623-676 -/
example (E : Env) (pub : E.EdPub) (v) : mockVerify E pub (.ok { proof := some (testProof .authentication) }) v =
    .error (.proofVerificationError "mismatch proof purpose".toList) := rfl

/-- test_verify_success, core/src/verifiable/proof/integrity.rs:682-740 -/
example (E : Env) (pub : E.EdPub) : ∃ r, mockVerify E pub (.ok { proof := some (testProof .assertionMethod) })
    (.ok ⟨true, some ⟨{}⟩⟩) = .ok r ∧ r.verified = true ∧ r.document.isSome := ⟨_, rfl, rfl, rfl⟩

end Verif.Props
