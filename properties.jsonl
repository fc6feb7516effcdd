{"id": "C01", "title": "DID string syntax", "statement": "For every account key pair, DID::identity() succeeds and its value is did:prople:<payload> where <payload> is the multibase base58btc text (prefix z, base58 alphabet) of the 64 lower-case hex characters of BLAKE3(SHA-384(public key)). The value has exactly three ':'-separated parts and contains none of the characters '?', '&', '=', '#', so Identity::account() on it succeeds and returns exactly <payload>, and decoding <payload> gives the hex digest back.", "quantifier": "every key pair (every public key and digest value)", "why_tests_cant": "A test checks a handful of random keys with contains(); separators or a failing account() could appear for some digest only.", "anchors": [{"file": "core/src/did/mod.rs", "symbols": ["DID::identity"]}, {"file": "core/src/identity/mod.rs", "symbols": ["Identity::value", "Identity::account"]}, {"file": "core/src/types.rs", "symbols": ["DID_SYNTAX_SCHEME", "DID_SYNTAX_METHOD", "DID_SYNTAX_MARK"]}]}
{"id": "C02", "title": "PEM export/import preserves the account and the identity", "statement": "For every account, if build_pem() returns text then from_pem on that text (Account and DID) returns an account with the same key pair, hence the same public key, the same signatures and the same DID string. A text the PEM decoder rejects gives exactly DecodePEMError / InvalidPEM.", "quantifier": "every account, every text", "why_tests_cant": "The test exports one random key; a key whose export and import disagree would not be hit.", "anchors": [{"file": "core/src/account/mod.rs", "symbols": ["Account::build_pem", "Account::from_pem"]}, {"file": "core/src/did/mod.rs", "symbols": ["DID::from_pem", "DID::identity"]}]}
{"id": "C03", "title": "KeySecure restore with the right password", "statement": "For every account, every password and all randomness used for salt and nonce: if exporting the private key to KeySecure under the password succeeds, Account::from_keysecure and DID::from_keysecure with the same password return the same key pair and the same DID string.", "quantifier": "every key, password (any Unicode string, including empty), salt and nonce", "why_tests_cant": "One password and one random salt/nonce are tested; the salt is taken as the UTF-8 bytes of a string and the nonce goes through hex, so other values matter.", "anchors": [{"file": "core/src/account/mod.rs", "symbols": ["Account::from_keysecure"]}, {"file": "core/src/did/mod.rs", "symbols": ["DID::from_keysecure"]}]}
{"id": "C04", "title": "KeySecure restore never invents a key", "statement": "For every KeySecure record and password: from_keysecure returns an account only if the cipher text and the nonce are hex, the nonce has 24 bytes, the KDF succeeds, the AEAD accepts (key derived from this password and the record's salt and cost parameters, that nonce, that cipher text), the plaintext is UTF-8 and is a PEM of exactly the returned key; in every other case it returns DecodeError (or DecodePEMError for the last step) and nothing else. In particular a wrong password restores a key only if the AEAD authenticates under the key derived from the wrong password.", "quantifier": "every record, including arbitrary malformed ones, and every password", "why_tests_cant": "Malformed records are unbounded in number; tests try one wrong password.", "anchors": [{"file": "core/src/account/mod.rs", "symbols": ["Account::from_keysecure"]}]}
{"id": "C05", "title": "DID strings identify the public key", "statement": "For any two accounts, equal DID strings imply equal serialised public keys, or the pair exhibits an explicit SHA-384 collision or an explicit BLAKE3 collision.", "quantifier": "all pairs of key pairs", "why_tests_cant": "Injectivity is a statement about all pairs; sampling random keys never finds a truncation or a non-injective encoding.", "anchors": [{"file": "core/src/did/mod.rs", "symbols": ["DID::identity"]}]}
{"id": "C06", "title": "Identity::account on arbitrary text", "statement": "For every string given to Identity::new, account() returns InvalidDID exactly when the string has fewer than two ':' characters; otherwise it returns the text after the last ':' (which contains no ':'). It does not check scheme or method.", "quantifier": "every string", "why_tests_cant": "All strings, with any number and position of separators.", "anchors": [{"file": "core/src/identity/mod.rs", "symbols": ["Identity::new", "Identity::account"]}]}
{"id": "C07", "title": "URI build/parse round trip", "statement": "For every DID and every Params with at least one field set: DID::parse_uri(did.build_uri(Some(params))) returns exactly (did string, params) if and only if neither field value contains '?', '&' or '='.", "quantifier": "every DID key and every pair of optional strings", "why_tests_cant": "The separator set that breaks the round trip can only be found by quantifying over all field values; tests use two literals.", "anchors": [{"file": "core/src/did/mod.rs", "symbols": ["DID::build_uri", "DID::parse_uri"]}, {"file": "core/src/did/query.rs", "symbols": ["Params::build_query"]}]}
{"id": "C08", "title": "parse_uri is total and never panics", "statement": "For every string, DID::parse_uri returns Ok: no index is out of bounds and no error is produced; the first component is exactly the text before the first '?' (the whole text if there is none).", "quantifier": "every string", "why_tests_cant": "The code indexes splitted[0], splitted[1], splitted_param[0] and [1]; absence of panics is a claim about all inputs.", "anchors": [{"file": "core/src/did/mod.rs", "symbols": ["DID::parse_uri"]}]}
{"id": "C09", "title": "parse_uri picks the last occurrence and ignores the rest", "statement": "For every string, the parsed address (hl) is the text between the first and second '=' of the last '&'-segment, within the text between the first and second '?', whose text before its first '=' is exactly address (hl); None if there is no such segment. Unknown keys, segments without '=' and everything after a second '?' do not influence the result.", "quantifier": "every string", "why_tests_cant": "Repeated keys, extra separators and unknown keys combine without bound.", "anchors": [{"file": "core/src/did/mod.rs", "symbols": ["DID::parse_uri"]}]}
{"id": "C10", "title": "build_uri result and failure", "statement": "build_uri(None) is the DID string; build_uri(Some(params)) fails, with BuildURIError, exactly when neither address nor hl is set, and otherwise is <did>?<query> with query address=<a>, hl=<h> or address=<a>&hl=<h> in that order.", "quantifier": "every DID and every Params", "why_tests_cant": "All combinations of optional values of any content.", "anchors": [{"file": "core/src/did/mod.rs", "symbols": ["DID::build_uri"]}, {"file": "core/src/did/query.rs", "symbols": ["Params::build_query"]}]}
{"id": "C11", "title": "Method keys are generated once", "statement": "For every sequence of build_auth_method / build_assertion_method calls on an Identity, the authentication (assertion) key material is absent iff no corresponding call was made, and otherwise is the material generated by the first such call: later calls never replace keys. The identity text never changes.", "quantifier": "every finite call history and all randomness", "why_tests_cant": "A history property over unbounded call sequences.", "anchors": [{"file": "core/src/identity/mod.rs", "symbols": ["Identity::build_auth_method", "Identity::build_assertion_method", "Identity::get_authentication_method", "Identity::get_assertion_method", "Identity::value"]}]}
{"id": "C12", "title": "DID document content", "statement": "For every Identity state reachable from Identity::new, to_doc() has id equal to the identity, contexts [did/v1, ed25519-2020, x25519-2020] in this order, an authentication (assertionMethod) entry list iff the corresponding method was built, consisting of exactly one Ed25519VerificationKey2020 entry followed by one X25519KeyAgreementKey2020 entry, with ids <identity>#key-auth-verification, #key-auth-aggrement, #key-assertion-verification, #key-assertion-aggrement, controller equal to the identity and the multibase of the corresponding public keys; no capability entries; all entry ids are pairwise distinct.", "quantifier": "every identity text and every call history", "why_tests_cant": "Swapped keys between slots or wrong ids show up only by relating the document to the state for every history.", "anchors": [{"file": "core/src/identity/mod.rs", "symbols": ["Identity::to_doc"]}, {"file": "core/src/doc/mod.rs", "symbols": ["Doc::generate", "Doc::add_authentication", "Doc::add_assertion"]}]}
{"id": "C13", "title": "Published keys match the private keys", "statement": "For every reachable Identity, every entry of the document produced by to_doc() decodes (Primary::decode_pub_key) to the public key of the private key held in the corresponding slot, with EdDSA for verification entries and ECDH for agreement entries; equally Pairs::decode_pub_key / decode_public_key return that key.", "quantifier": "every key, every call history", "why_tests_cant": "The text goes through hex, UTF-8 and base58; the round trip must hold for every key value.", "anchors": [{"file": "core/src/doc/mod.rs", "symbols": ["Primary::decode_pub_key"]}, {"file": "core/src/keys/verification.rs", "symbols": ["Key::generate", "Pairs::decode_pub_key"]}, {"file": "core/src/keys/agreement.rs", "symbols": ["Key::generate", "Pairs::decode_public_key"]}, {"file": "core/src/identity/mod.rs", "symbols": ["Identity::to_doc"]}]}
{"id": "C14", "title": "Exported private keys decrypt to the slot's private key", "statement": "For every reachable Identity, password and randomness: if build_private_keys(password) succeeds, its identity is the identity text, authentication/assertion are present iff the method was built, and decrypt_verification / decrypt_agreement with the same password return exactly the private key export of that slot, whose public key is the one published by to_doc().", "quantifier": "every call history, password and all randomness", "why_tests_cant": "Relates three outputs over all states; one swapped slot or wrong password argument breaks it only in some states.", "anchors": [{"file": "core/src/identity/mod.rs", "symbols": ["Identity::build_private_keys"]}, {"file": "core/src/keys/secure.rs", "symbols": ["PrivateKeyPairs::decrypt_verification", "PrivateKeyPairs::decrypt_agreement", "IdentityPrivateKeyPairs::new"]}]}
{"id": "C15", "title": "Public key decoding is type directed", "statement": "For every Primary: decode_pub_key returns an EdDSA key only for type Ed25519VerificationKey2020, an ECDH key only for X25519KeyAgreementKey2020, and fails with DecodePubKeyError for every other type; it succeeds exactly when the multibase text decodes to bytes that are UTF-8, which are hex, of a valid key of that type, and returns that key. The multibase base used does not matter.", "quantifier": "every type text and every multibase text", "why_tests_cant": "All strings of both fields.", "anchors": [{"file": "core/src/doc/mod.rs", "symbols": ["Primary::decode_pub_key", "Primary::decode_pub_key_verificaiton", "Primary::decode_pub_key_agreement"]}]}
{"id": "C16", "title": "Document builder histories", "statement": "For every sequence of add_context / add_authentication / add_assertion / add_cap_delegate / add_cap_invoke calls on Doc::generate(id): each list holds exactly the arguments of its own calls in call order (contexts preceded by did/v1), a list is absent iff it had no call, calls on different lists commute, and id is unchanged.", "quantifier": "every finite call history", "why_tests_cant": "Unbounded histories and interleavings; the code has a two-step if-let/is_none pattern that could double insert.", "anchors": [{"file": "core/src/doc/mod.rs", "symbols": ["Doc::generate", "Doc::add_context", "Doc::add_assertion", "Doc::add_authentication", "Doc::add_cap_delegate", "Doc::add_cap_invoke"]}]}
{"id": "C17", "title": "Document validation", "statement": "For every Doc, validate() is Ok iff id is non-empty and there is at least one context; a missing id is reported first. Every document produced by to_doc() from a non-empty identity validates.", "quantifier": "every Doc value and every reachable identity", "why_tests_cant": "Exact characterisation over all values.", "anchors": [{"file": "core/src/doc/mod.rs", "symbols": ["Doc::validate"]}, {"file": "core/src/identity/mod.rs", "symbols": ["Identity::to_doc"]}]}
{"id": "C18", "title": "Document JSON round trip", "statement": "For every Doc, to_json succeeds and parsing the text as a Doc returns the same Doc (absent lists stay absent, empty lists stay empty), for every string content including quotes, control and non-ASCII characters.", "quantifier": "every Doc value", "why_tests_cant": "String escaping and optional members must be right for every character and every presence pattern.", "anchors": [{"file": "core/src/doc/mod.rs", "symbols": ["Doc", "Primary", "Doc::to_json"]}]}
{"id": "C19", "title": "Key pair validity check", "statement": "Pairs::is_valid of verification and agreement pairs: intended meaning is that both public and private key texts are present. For every pair, is_valid must be true only if the public key text is non-empty.", "quantifier": "every pair value", "why_tests_cant": "Public fields can hold any text.", "anchors": [{"file": "core/src/keys/verification.rs", "symbols": ["Pairs::is_valid"]}, {"file": "core/src/keys/agreement.rs", "symbols": ["Pairs::is_valid"]}]}
{"id": "C20", "title": "Hashlink round trip", "statement": "For every value whose to_json succeeds, generate_from_json succeeds and verify_from_json of the same value and that text is Ok. If to_json fails, both return that same error.", "quantifier": "every value and every digest", "why_tests_cant": "Encoding must be right for every digest, including leading zero bytes.", "anchors": [{"file": "core/src/hashlink.rs", "symbols": ["generate_from_json", "verify_from_json"]}]}
{"id": "C21", "title": "Hashlink acceptance is exact", "statement": "For every value and every text, verify_from_json is Ok iff generate_from_json of that value returns exactly that text: no other spelling, base or code is accepted; every rejection is a HashLinkError.", "quantifier": "every value, every candidate text", "why_tests_cant": "Acceptance of a second spelling cannot be excluded by examples.", "anchors": [{"file": "core/src/hashlink.rs", "symbols": ["generate_from_json", "verify_from_json"]}]}
{"id": "C22", "title": "Hashlink integrity", "statement": "If verify_from_json accepts a hashlink generated from another value, the two values have the same JSON text or the two texts are an explicit BLAKE3 collision.", "quantifier": "all pairs of values", "why_tests_cant": "A claim about all pairs.", "anchors": [{"file": "core/src/hashlink.rs", "symbols": ["generate_from_json", "verify_from_json"]}]}
{"id": "C23", "title": "Hashlink shape", "statement": "Every generated hashlink is 'z' followed by base58btc text whose decoding is the multihash 0x1e, 0x20, then the 32 digest bytes.", "quantifier": "every value", "why_tests_cant": "All digest values.", "anchors": [{"file": "core/src/hashlink.rs", "symbols": ["generate_from_json"]}, {"file": "core/src/types.rs", "symbols": ["BLAKE3_HASH_CODE"]}]}
{"id": "C24", "title": "VC validation gates serialisation", "statement": "For every VC: validate is Ok iff contexts and types are non-empty and the credential subject is not JSON null; the first failing check in the order context, types, subject determines the error; to_json and to_jcs succeed iff validate is Ok and otherwise return that same error.", "quantifier": "every VC value", "why_tests_cant": "Exact characterisation over all values and combinations.", "anchors": [{"file": "core/src/verifiable/vc.rs", "symbols": ["VC::validate", "VC::to_json", "VC::to_jcs"]}]}
{"id": "C25", "title": "VP validation gates serialisation", "statement": "For every VP: validate is Ok iff contexts, types and credentials are non-empty, with errors in this order; to_json/to_jcs succeed iff validate is Ok. The embedded credentials are not validated: a VP holding an invalid VC is accepted.", "quantifier": "every VP value", "why_tests_cant": "Exact characterisation over all values.", "anchors": [{"file": "core/src/verifiable/vp.rs", "symbols": ["VP::validate", "VP::to_json", "VP::to_jcs"]}]}
{"id": "C26", "title": "VC JSON round trip", "statement": "For every VC that validates, whose subject nests at most 126 containers and whose floating point numbers survive print/parse, parse_json_bytes(to_json bytes) returns the same VC, including its proof. With deeper nesting to_json succeeds but parse_json_bytes fails.", "quantifier": "every VC value, any nesting depth and any strings", "why_tests_cant": "Any string content, any optional pattern and unbounded nesting; the failure appears only past the parser's recursion limit.", "anchors": [{"file": "core/src/verifiable/vc.rs", "symbols": ["VC", "VC::to_json", "VC::parse_json_bytes"]}, {"file": "core/src/verifiable/proof/mod.rs", "symbols": ["Proof"]}, {"file": "core/src/types.rs", "symbols": ["JSONValue::to_bytes"]}]}
{"id": "C27", "title": "VP JSON round trip", "statement": "For every VP that validates, whose embedded subjects nest at most 124 containers and whose floats survive print/parse, parse_json_bytes(to_json bytes) returns the same VP including holder, proof and all embedded VCs, whether or not these validate.", "quantifier": "every VP value", "why_tests_cant": "As C26, with lists of embedded credentials of any length.", "anchors": [{"file": "core/src/verifiable/vp.rs", "symbols": ["VP", "VP::to_json", "VP::parse_json_bytes"]}]}
{"id": "C28", "title": "Parsing ignores member order and unknown members, rejects duplicates", "statement": "For every JSON object text: reordering members (at any depth, distinct keys) does not change the parsed VC/VP; adding members with unknown names does not change it; a repeated known member makes parsing fail; a missing non-optional member makes it fail.", "quantifier": "every JSON object, every permutation, every unknown member", "why_tests_cant": "All permutations and all possible extra members.", "anchors": [{"file": "core/src/verifiable/vc.rs", "symbols": ["VC::parse_json_bytes"]}, {"file": "core/src/verifiable/vp.rs", "symbols": ["VP::parse_json_bytes"]}, {"file": "core/src/verifiable/proof/mod.rs", "symbols": ["Proof"]}]}
{"id": "C29", "title": "Canonical form is injective and order independent", "statement": "For any two VCs (VPs) that validate, to_jcs returns the same text iff all fields are equal, comparing JSON numbers by their canonical text and JSON objects as key/value maps.", "quantifier": "all pairs of documents", "why_tests_cant": "Needs every pair: a missing escape or separator would make two different documents share a canonical text.", "anchors": [{"file": "core/src/verifiable/vc.rs", "symbols": ["VC::to_jcs"]}, {"file": "core/src/verifiable/vp.rs", "symbols": ["VP::to_jcs"]}, {"file": "core/src/verifiable/proof/mod.rs", "symbols": ["Proof::to_jcs"]}]}
{"id": "C30", "title": "Credential and presentation builder histories", "statement": "For every sequence of VC builder calls (add_context, add_type, set_credential, proof) on VC::new and of VP builder calls (add_context, add_type, add_credential, add_proof, set_holder) on VP::new: lists hold the arguments of their own calls in call order, single-valued fields hold the last argument given, and id and issuer never change. remove_proof clears only the proof; get_proof returns the last one set.", "quantifier": "every finite call history", "why_tests_cant": "Unbounded histories.", "anchors": [{"file": "core/src/verifiable/vc.rs", "symbols": ["VC::new", "VC::add_context", "VC::add_type", "VC::set_credential", "VC::proof", "VC::remove_proof", "VC::get_proof"]}, {"file": "core/src/verifiable/vp.rs", "symbols": ["VP::new", "VP::add_context", "VP::add_type", "VP::add_credential", "VP::add_proof", "VP::set_holder", "VP::remove_proof"]}]}
{"id": "C31", "title": "Sign then verify succeeds", "statement": "For every key pair, every VC or VP without a proof that validates and survives JSON transport (C26/C27), and all proof options with type DataIntegrityProof, cryptosuite eddsa-jcs-2022, a parseable created date, a known purpose and an empty proof value: add_proof succeeds, and verify_proof of the JSON bytes of the result under the public key and that purpose returns verified = true together with exactly the original document.", "quantifier": "every key, document and options value", "why_tests_cant": "End-to-end over all documents, options and keys; the one integration test uses a fixed VC and bypasses JSON.", "anchors": [{"file": "core/src/verifiable/proof/integrity.rs", "symbols": ["Integrity::add_proof", "Integrity::verify_proof"]}, {"file": "core/src/verifiable/proof/eddsa.rs", "symbols": ["EddsaJcs2022::create_proof", "EddsaJcs2022::verify_proof"]}]}
{"id": "C32", "title": "add_proof outcome", "statement": "For every key, document and options: add_proof succeeds iff type is DataIntegrityProof, cryptosuite is eddsa-jcs-2022, created is present and parseable, the document's to_jcs succeeds and the purpose is not unknown; every failure is a ProofGenerationError. On success only the document's proof changes and it equals the options except for the proof value, which is the base58btc multibase text of the signature.", "quantifier": "every key, document and options value", "why_tests_cant": "Exact characterisation over all inputs.", "anchors": [{"file": "core/src/verifiable/proof/integrity.rs", "symbols": ["Integrity::add_proof"]}, {"file": "core/src/verifiable/proof/eddsa.rs", "symbols": ["EddsaJcs2022::create_proof"]}, {"file": "core/src/verifiable/proof/config.rs", "symbols": ["generate_proof_config"]}, {"file": "core/src/verifiable/proof/transform.rs", "symbols": ["transform_document"]}, {"file": "core/src/verifiable/proof/mod.rs", "symbols": ["Proof::validate", "Proof::validate_type", "Proof::validate_cryptosuite", "Proof::validate_created"]}]}
{"id": "C33", "title": "verify_proof accepts exactly the specified documents", "statement": "For every public key, byte string and expected purpose: verify_proof returns verified = true iff the bytes parse to a document with a proof whose type, cryptosuite and created date are valid, whose purpose is known and equals the expected one, whose proof value is a multibase text, and the key verifies the decoded bytes as a signature of SHA-256(JCS(proof without value)) followed by SHA-256(JCS(document without proof)).", "quantifier": "every key, byte string and purpose", "why_tests_cant": "Soundness over all byte strings.", "anchors": [{"file": "core/src/verifiable/proof/integrity.rs", "symbols": ["Integrity::verify_proof"]}, {"file": "core/src/verifiable/proof/eddsa.rs", "symbols": ["EddsaJcs2022::verify_proof"]}, {"file": "core/src/verifiable/proof/hash.rs", "symbols": ["generate_hash"]}, {"file": "core/src/verifiable/proof/verifier.rs", "symbols": ["verify_signature"]}]}
{"id": "C34", "title": "Verification result shape", "statement": "Whenever verify_proof returns Ok, document is present iff verified is true, and then it is the parsed document with its proof removed and all other fields unchanged.", "quantifier": "every key, byte string and purpose", "why_tests_cant": "Holds for every input, including those for which the signature check returns false instead of an error.", "anchors": [{"file": "core/src/verifiable/proof/types.rs", "symbols": ["CryptoSuiteVerificationResult::result"]}, {"file": "core/src/verifiable/proof/eddsa.rs", "symbols": ["EddsaJcs2022::verify_proof"]}]}
{"id": "C35", "title": "Tamper evidence", "statement": "If a document was signed with add_proof under a key and verify_proof under the matching public key accepts some byte string whose proof carries the same signature bytes, then the accepted document has the same canonical form and the same proof options (id, type, purpose, method, created, expires, cryptosuite) as what was signed, or there is an explicit SHA-256 collision, or the signature also verifies a message different from the signed one.", "quantifier": "every signed document, every accepted byte string", "why_tests_cant": "All possible modifications of a document.", "anchors": [{"file": "core/src/verifiable/proof/integrity.rs", "symbols": ["Integrity::add_proof", "Integrity::verify_proof"]}, {"file": "core/src/verifiable/proof/eddsa.rs", "symbols": ["EddsaJcs2022::create_proof", "EddsaJcs2022::verify_proof"]}]}
{"id": "C36", "title": "Proof purpose discipline", "statement": "No document is signed or accepted with purpose unknown, and no document is accepted under an expected purpose different from the one in its proof, whatever the signature.", "quantifier": "every document, key and purpose pair", "why_tests_cant": "All pairs of purposes and all documents.", "anchors": [{"file": "core/src/verifiable/proof/integrity.rs", "symbols": ["Integrity::verify_proof"]}, {"file": "core/src/verifiable/proof/mod.rs", "symbols": ["Proof::validate"]}, {"file": "core/src/verifiable/proof/types.rs", "symbols": ["ProofPurpose"]}]}
{"id": "C37", "title": "Every successfully signed document verifies", "statement": "Whatever the options and document, if add_proof succeeds then verify_proof under the matching key and purpose accepts the result.", "quantifier": "every document and options value for which add_proof succeeds", "why_tests_cant": "False corner cases hide in options that carry a stale proof value and documents that already carry a proof; tests start from clean ones.", "anchors": [{"file": "core/src/verifiable/proof/integrity.rs", "symbols": ["Integrity::add_proof"]}, {"file": "core/src/verifiable/proof/eddsa.rs", "symbols": ["EddsaJcs2022::create_proof", "EddsaJcs2022::verify_proof"]}, {"file": "core/src/verifiable/proof/mod.rs", "symbols": ["Proof::remove_proof_value"]}]}
{"id": "C38", "title": "Proof value spelling", "statement": "A document is accepted only if its proof value is the base58btc spelling of the signature (what eddsa-jcs-2022 requires).", "quantifier": "every proof value text", "why_tests_cant": "Requires quantifying over every multibase spelling of the same bytes.", "anchors": [{"file": "core/src/verifiable/proof/eddsa.rs", "symbols": ["EddsaJcs2022::verify_proof"]}, {"file": "core/src/verifiable/proof/serialize.rs", "symbols": ["ProofByte::encode"]}]}
{"id": "C39", "title": "Expired proofs are rejected", "statement": "verify_proof does not accept a proof whose expires date has passed.", "quantifier": "every expires text", "why_tests_cant": "The claim is about every expires value and point in time.", "anchors": [{"file": "core/src/verifiable/proof/mod.rs", "symbols": ["Proof::expires"]}, {"file": "core/src/verifiable/proof/integrity.rs", "symbols": ["Integrity::verify_proof"]}]}
{"id": "C40", "title": "A verified presentation vouches for its credentials", "statement": "If verify_proof accepts a VP then every embedded VC validates and, if it carries a proof, that proof verifies.", "quantifier": "every VP", "why_tests_cant": "All embedded credential lists.", "anchors": [{"file": "core/src/verifiable/vp.rs", "symbols": ["VP::validate"]}, {"file": "core/src/verifiable/proof/integrity.rs", "symbols": ["Integrity::verify_proof"]}]}
{"id": "C41", "title": "The verification key is bound to the document", "statement": "verify_proof accepts only if the public key used belongs to the proof's verificationMethod (or issuer/holder).", "quantifier": "every document and key", "why_tests_cant": "All combinations of keys and verification methods.", "anchors": [{"file": "core/src/verifiable/proof/integrity.rs", "symbols": ["Integrity::verify_proof"]}, {"file": "core/src/verifiable/proof/mod.rs", "symbols": ["Proof"]}]}
{"id": "C42", "title": "Proof purpose names", "statement": "ProofPurpose text conversions agree: parsing the displayed text gives the purpose back, the JSON member text is the displayed text, every other text converts to Unknown, and JSON parsing rejects every other text.", "quantifier": "every string", "why_tests_cant": "All strings outside the table must go to Unknown / be rejected.", "anchors": [{"file": "core/src/verifiable/proof/types.rs", "symbols": ["ProofPurpose", "ProofPurpose::from", "ProofPurpose::fmt"]}]}
{"id": "C43", "title": "Proof setter histories", "statement": "For every sequence of Proof setter calls on Proof::new(id) or Proof::default(): every field holds the value of its last setter call, or its initial value; setters of different fields commute; remove_proof_value clears only the proof value; the id never changes.", "quantifier": "every finite call history", "why_tests_cant": "Unbounded histories.", "anchors": [{"file": "core/src/verifiable/proof/mod.rs", "symbols": ["Proof::new", "Proof::typ", "Proof::set_signature_as_string", "Proof::purpose", "Proof::method", "Proof::cryptosuite", "Proof::created", "Proof::expires", "Proof::remove_proof_value"]}]}
{"id": "C44", "title": "Error classes of verification", "statement": "For every input verify_proof either returns a result or an error of class ProofGenerationError or ProofVerificationError; it is ProofVerificationError for a missing proof, an empty type, an unknown or mismatched purpose, a proof value that is not multibase and a signature check error; ProofGenerationError for unparsable bytes, wrong type or cryptosuite, missing or unparsable created date and a document without canonical form.", "quantifier": "every key, byte string and purpose", "why_tests_cant": "The class for every input, in the order the checks run.", "anchors": [{"file": "core/src/verifiable/proof/integrity.rs", "symbols": ["Integrity::verify_proof"]}, {"file": "core/src/verifiable/proof/eddsa.rs", "symbols": ["EddsaJcs2022::verify_proof"]}]}
{"id": "C45", "title": "JSON value bytes", "statement": "JSONValue::try_from(value.to_bytes()) returns the value, for every text; try_from of bytes succeeds iff they are valid UTF-8 and then to_bytes returns the same bytes.", "quantifier": "every string and every byte string", "why_tests_cant": "All Unicode strings and all byte strings.", "anchors": [{"file": "core/src/types.rs", "symbols": ["JSONValue::to_bytes", "JSONValue::try_from", "JSONValue::from"]}]}
{"id": "C46", "title": "Connection credential JSON", "statement": "For every UserConnectionCredential, to_json succeeds, has the member names UserConnectionCredential / @context / userAgentAddress / userDid, and parses back to the same value.", "quantifier": "every pair of strings", "why_tests_cant": "Any string content.", "anchors": [{"file": "core/src/context/ext/user_connection.rs", "symbols": ["UserConnectionCredential", "UserConnectionCredentialContext", "UserConnectionCredentialProperties"]}]}
{"id": "C47", "title": "Signed bytes are domain separated by fixed length", "statement": "The signed byte string of a proof is exactly 64 bytes: the 32 byte hash of the options first, then the 32 byte hash of the document; two (options, document) pairs with equal signed bytes have pairwise equal hashes. For any two hashers, generate_hash succeeds exactly when both do, with the options' digest first, and otherwise gives a generation error quoting the first failure, the document's before the options'.", "quantifier": "all pairs of options and documents, all pairs of hasher results", "why_tests_cant": "A claim about all pairs.", "anchors": [{"file": "core/src/verifiable/proof/hash.rs", "symbols": ["generate_hash"]}, {"file": "core/src/verifiable/proof/transform.rs", "symbols": ["TransformedDoc::hash"]}, {"file": "core/src/verifiable/proof/config.rs", "symbols": ["ProofConfig::hash"]}]}
{"id": "C48", "title": "Multiaddr view of the address", "statement": "Params::parse_multiaddr is Ok(None) when no address is set, otherwise succeeds exactly when the multiaddr parser accepts the text and returns its result; a rejected text gives GenerateMultiAddrError. hl has no influence.", "quantifier": "every Params", "why_tests_cant": "All texts.", "anchors": [{"file": "core/src/did/query.rs", "symbols": ["Params::parse_multiaddr"]}]}
{"id": "C49", "title": "Wire format", "statement": "For every VC and VP that validates, every Doc and every Proof: to_json (to_jcs) is exactly the compact JSON text (RFC 8785 text) of the object with the members and values of the W3C names (@context, type, credentialSubject, proof, id, issuer, verifiableCredential, holder, authentication, assertionMethod, capabilityDelegation, capabilityInvocation, proofPurpose, ...): nothing else is written, an absent optional member is left out.", "quantifier": "every VC, VP, Doc and Proof", "why_tests_cant": "The exact text for every content, including escapes and absent members.", "anchors": [{"file": "core/src/verifiable/vc.rs", "symbols": ["VC", "VC::to_json", "VC::to_jcs"]}, {"file": "core/src/verifiable/vp.rs", "symbols": ["VP", "VP::to_json", "VP::to_jcs"]}, {"file": "core/src/doc/mod.rs", "symbols": ["Doc", "Doc::to_json"]}, {"file": "core/src/verifiable/proof/mod.rs", "symbols": ["Proof"]}]}
{"id": "C50", "title": "Only RFC 8259 texts are read, each in one way", "statement": "VC::parse_json_bytes and VP::parse_json_bytes reject every byte string that is not a JSON text by the grammar of RFC 8259; a JSON text has exactly one reading as a token tree; white space between tokens has no influence.", "quantifier": "every byte string", "why_tests_cant": "Malformed texts (trailing bytes, trailing commas, leading zeros, bad escapes, control characters) are infinitely many.", "anchors": [{"file": "core/src/verifiable/vc.rs", "symbols": ["VC::parse_json_bytes"]}, {"file": "core/src/verifiable/vp.rs", "symbols": ["VP::parse_json_bytes"]}]}
{"id": "C51", "title": "Exactly what is read", "statement": "VC::parse_json_bytes (VP::parse_json_bytes, reading a Doc or a Proof) returns v if and only if the bytes are a JSON text describing v: every known member at most once and of its type, mandatory members present, optional ones absent or null, escapes and surrogate pairs decoded, 64 bit integers kept, objects in name order with the last repeated name winning, nesting of the subject at most 126 (124 inside a presentation). The description is unique.", "quantifier": "every byte string and every value", "why_tests_cant": "Both directions over all byte strings: nothing else is accepted and nothing described is refused.", "anchors": [{"file": "core/src/verifiable/vc.rs", "symbols": ["VC", "VC::parse_json_bytes"]}, {"file": "core/src/verifiable/vp.rs", "symbols": ["VP", "VP::parse_json_bytes"]}, {"file": "core/src/doc/mod.rs", "symbols": ["Doc", "Primary"]}, {"file": "core/src/verifiable/proof/mod.rs", "symbols": ["Proof"]}, {"file": "core/src/verifiable/proof/types.rs", "symbols": ["ProofPurpose"]}]}
{"id": "C52", "title": "A signature belongs to one kind of document", "statement": "No canonical text is that of a VC and of a VP, nor that of either and of proof options. The JSON written for a VC is never read as a VP and vice versa. Whenever verify_proof accepts a VP that carries the signature bytes of a signed VC (or the reverse), there is an explicit SHA-256 collision or the signature verifies a second, explicit message; the same if one signature is accepted for a VC and a VP under one key, whoever made it.", "quantifier": "all VCs, VPs, options, keys and byte strings", "why_tests_cant": "Cross-protocol replay needs a statement about all pairs of documents of different type.", "anchors": [{"file": "core/src/verifiable/vc.rs", "symbols": ["VC::to_jcs", "VC::to_json", "VC::parse_json_bytes"]}, {"file": "core/src/verifiable/vp.rs", "symbols": ["VP::to_jcs", "VP::to_json", "VP::parse_json_bytes"]}, {"file": "core/src/verifiable/proof/integrity.rs", "symbols": ["Integrity::verify_proof"]}]}
{"id": "C53", "title": "Canonical text is a transport format", "statement": "The to_jcs text of a VC or VP that validates (subject nesting at most 126, 124 inside a VP) is read by parse_json_bytes as the same document up to number spelling if and only if every number, written canonically, is read as a number with the same canonical text; written again it gives the same text. Verification accepts two texts of the same document up to number spelling alike; a signed document sent as canonical text is accepted and gives back the signed document up to number spelling.", "quantifier": "every VC, VP, key, options and byte string", "why_tests_cant": "Member order, number spelling and nesting vary without bound.", "anchors": [{"file": "core/src/verifiable/vc.rs", "symbols": ["VC::to_jcs", "VC::parse_json_bytes"]}, {"file": "core/src/verifiable/vp.rs", "symbols": ["VP::to_jcs", "VP::parse_json_bytes"]}, {"file": "core/src/verifiable/proof/integrity.rs", "symbols": ["Integrity::verify_proof"]}]}
{"id": "C54", "title": "Exported private keys as JSON", "statement": "IdentityPrivateKeyPairs::to_json never fails and writes exactly the members identity, authentication, assertion (absent slots left out), each slot with exactly the members verification and aggrement. The reader accepts a byte string as a value if and only if it is a JSON text describing that value. Keys exported from an identity, stored as this text and read again decrypt to the private keys of the identity, if the record reader of the dependency reads back the records it writes.", "quantifier": "every export, every byte string, every history of an identity", "why_tests_cant": "All exports, all texts and all histories of calls.", "anchors": [{"file": "core/src/keys/secure.rs", "symbols": ["IdentityPrivateKeyPairs", "PrivateKeyPairs", "IdentityPrivateKeyPairs::to_json"]}, {"file": "core/src/identity/mod.rs", "symbols": ["Identity::build_private_keys"]}]}
{"id": "C55", "title": "From the DID to a verified signature", "statement": "Take an identity made from a DID, any calls on it, its document written as JSON and its private keys exported under a password and written as JSON. Whoever reads the document text gets the DID as id and, for every slot that was built, an Ed25519 key that accepts every credential and presentation signed by the account restored from the stored keys with the password, and an X25519 key belonging to the stored secret.", "quantifier": "every key pair, history of calls, password, randomness, document and options", "why_tests_cant": "Composition over all histories and all documents; each test checks one step with fresh keys.", "anchors": [{"file": "core/src/did/mod.rs", "symbols": ["DID::identity", "DID::from_keysecure"]}, {"file": "core/src/identity/mod.rs", "symbols": ["Identity::to_doc", "Identity::build_private_keys"]}, {"file": "core/src/doc/mod.rs", "symbols": ["Doc", "Primary::decode_pub_key"]}, {"file": "core/src/keys/secure.rs", "symbols": ["IdentityPrivateKeyPairs"]}, {"file": "core/src/verifiable/proof/integrity.rs", "symbols": ["Integrity::verify_proof"]}]}
{"id": "C56", "title": "Hashlink in a DID URI", "statement": "For every DID, every JSON value and every address without ? & =: the URI built with the hashlink of the value parses back to the DID, the address and the hashlink. Another value passes verify_from_json against it iff it has the same BLAKE3 hash; another DID document that passes is equal or an explicit BLAKE3 collision.", "quantifier": "every DID, value, document and address", "why_tests_cant": "All documents, including one chosen by an attacker.", "anchors": [{"file": "core/src/did/mod.rs", "symbols": ["DID::build_uri", "DID::parse_uri"]}, {"file": "core/src/did/query.rs", "symbols": ["Params::build_query"]}, {"file": "core/src/hashlink.rs", "symbols": ["generate_from_json", "verify_from_json"]}]}
{"id": "C57", "title": "One signature, one document", "statement": "Two byte strings accepted under one key and carrying the same signature bytes, whoever made them, hold the same credential (presentation) up to number spelling and the same options and purpose; otherwise there is an explicit SHA-256 collision or the key accepts the signature for two explicit messages.", "quantifier": "all pairs of byte strings, keys and purposes", "why_tests_cant": "A claim about all pairs of accepted texts.", "anchors": [{"file": "core/src/verifiable/proof/integrity.rs", "symbols": ["Integrity::verify_proof"]}, {"file": "core/src/verifiable/proof/eddsa.rs", "symbols": ["EddsaJcs2022::verify_proof"]}]}
{"id": "C58", "title": "Acceptance of received bytes", "statement": "verify_proof accepts a byte string if and only if it is a JSON text (RFC 8259) describing a complete document (C51) with a proof whose type, suite, created and purpose are right and whose value is a multibase text of a signature the key accepts for the two hashes; the returned document is the described one without its proof.", "quantifier": "every byte string, key and purpose", "why_tests_cant": "Both directions over all byte strings.", "anchors": [{"file": "core/src/verifiable/vc.rs", "symbols": ["VC::parse_json_bytes"]}, {"file": "core/src/verifiable/vp.rs", "symbols": ["VP::parse_json_bytes"]}, {"file": "core/src/verifiable/proof/integrity.rs", "symbols": ["Integrity::verify_proof"]}, {"file": "core/src/verifiable/proof/eddsa.rs", "symbols": ["EddsaJcs2022::verify_proof"]}]}
{"id": "C59", "title": "Passing documents on", "statement": "The outcome of verify_proof depends only on what parse_json_bytes makes of the bytes. A VC or VP that was received can be printed again exactly if it is complete; if its floating point numbers survive printing, the printed text reads back as the same value and every verifier gives it the same outcome as the received bytes; verifying an incomplete one is an error under every key and purpose. Sent on as canonical text it is accepted by the same verifiers. A received Doc printed again reads back.", "quantifier": "every byte string, document, key and purpose", "why_tests_cant": "All received texts: any spelling, member order, unknown members and nesting.", "anchors": [{"file": "core/src/verifiable/vc.rs", "symbols": ["VC::parse_json_bytes", "VC::to_json", "VC::to_jcs"]}, {"file": "core/src/verifiable/vp.rs", "symbols": ["VP::parse_json_bytes", "VP::to_json", "VP::to_jcs"]}, {"file": "core/src/verifiable/proof/integrity.rs", "symbols": ["Integrity::verify_proof"]}, {"file": "core/src/doc/mod.rs", "symbols": ["Doc::to_json"]}]}
{"id": "C60", "title": "Credentials survive inside a presentation", "statement": "A received complete VC whose subject nests at most 124 containers and whose floats survive printing, added to a VP that is then signed, printed and verified, is found unchanged after the other credentials of the VP; printed again it gets from every verifier the same outcome as the bytes the holder received. Every complete VC in a received VP can be printed and read on its own. With deeper nesting the VP is still signed and printed, and then rejected by every verifier.", "quantifier": "every received credential, presentation, key, options and purpose", "why_tests_cant": "All credentials and all presentations; the sharp nesting bound lies beyond hand-written examples.", "anchors": [{"file": "core/src/verifiable/vp.rs", "symbols": ["VP::add_credential", "VP::to_json", "VP::parse_json_bytes"]}, {"file": "core/src/verifiable/vc.rs", "symbols": ["VC::to_json", "VC::parse_json_bytes"]}, {"file": "core/src/verifiable/proof/integrity.rs", "symbols": ["Integrity::add_proof", "Integrity::verify_proof"]}]}
{"id": "C61", "title": "Every member of an accepted text is signed", "statement": "Changing a text member of an accepted VC text gives a text that is not accepted. This fails for members unknown to the structs: serde skips them, so anybody can add e.g. `validUntil` to an accepted VC, inside its proof, or inside a VC within a VP, and the outcome of verification stays the same under every key. For the members the structs know it holds, up to the spelling of the proof value (C38): two accepted texts differing in one member of the document other than proof hold the same document up to number spelling, and two differing in one member of the proof other than proofValue are the same document with the same proof, or there is an explicit hash collision or two explicit messages with one accepted signature.", "quantifier": "every text, every added member, every key and purpose", "why_tests_cant": "A test adds one member; the claim covers all names, values and positions and says exactly which members are covered by the signature.", "anchors": [{"file": "core/src/verifiable/vc.rs", "symbols": ["VC", "VC::parse_json_bytes"]}, {"file": "core/src/verifiable/vp.rs", "symbols": ["VP", "VP::parse_json_bytes"]}, {"file": "core/src/verifiable/proof/integrity.rs", "symbols": ["Integrity::verify_proof"]}]}
{"id": "C62", "title": "Where key material shows", "statement": "Two identities, after any histories of calls, have the same DID document (and the same JSON text of it) exactly if their DIDs and the public keys built by the first call for each slot are the same: the document shows the keys through their public parts only. An export of private keys consists of the DID and, per built slot, two records made from the PEM text and the secret bytes by the key derivation and the cipher with the given randomness, and nothing else. Whether signing succeeds and everything it returns other than proofValue is the same for all keys.", "quantifier": "all pairs of histories, keys, passwords, randomness, documents and options", "why_tests_cant": "Non-interference is a statement about pairs of runs.", "anchors": [{"file": "core/src/identity/mod.rs", "symbols": ["Identity::to_doc", "Identity::build_private_keys"]}, {"file": "core/src/doc/mod.rs", "symbols": ["Doc::to_json"]}, {"file": "core/src/verifiable/proof/integrity.rs", "symbols": ["Integrity::add_proof"]}]}
{"id": "C63", "title": "Member order of the canonical text", "statement": "RFC 8785 orders members by UTF-16 code units, Rust strings (and serde_json maps) by UTF-8 bytes, which is the order of code points. Both are total orders. On names without characters above U+FFFF, and on names without characters above U+DFFF in the basic plane, the orders agree; a name starting in U+E000..U+FFFF and one starting above U+FFFF are always ordered differently. If all names in the subject are of one of the first two kinds, a signer using one order and a verifier using the other produce and accept the same; there is a complete VC for which the signed bytes differ.", "quantifier": "all names, credentials, presentations, keys, options and byte strings", "why_tests_cant": "The difference appears only for names pairing rare characters.", "anchors": [{"file": "core/src/verifiable/vc.rs", "symbols": ["VC::to_jcs"]}, {"file": "core/src/verifiable/vp.rs", "symbols": ["VP::to_jcs"]}, {"file": "core/src/verifiable/proof/eddsa.rs", "symbols": ["EddsaJcs2022::create_proof", "EddsaJcs2022::verify_proof"]}]}
{"id": "C64", "title": "Unforgeability over signing histories", "statement": "Let a key sign any credentials and presentations with any options and any raw bytes through Account::signature, in any order. Whatever VC (VP) verify_proof then accepts from any bytes was signed in that history with those options, up to number spelling; or just its 64 byte message was signed as raw bytes; or a signature is accepted on a message the key never signed; or SHA-256 collides on explicit inputs. So with unforgeable signatures, no collision and no raw signature on 64 bytes, only signed documents are accepted.", "quantifier": "every history of uses, key, byte string and purpose", "why_tests_cant": "An adversary chooses history and bytes; tests cannot enumerate either.", "anchors": [{"file": "core/src/verifiable/proof/integrity.rs", "symbols": ["Integrity::add_proof", "Integrity::verify_proof"]}, {"file": "core/src/verifiable/proof/eddsa.rs", "symbols": ["EddsaJcs2022::verify_proof"]}, {"file": "core/src/account/mod.rs", "symbols": ["Account::signature"]}]}
{"id": "C65", "title": "Error texts identify errors", "statement": "The text printed for an error determines the error: two values of DIDError, of AccountError, of ProofError or of KeySecureError with the same Display text are the same variant with the same payload. When DID::from_keysecure fails, the text it carries determines which account error it was.", "quantifier": "every pair of error values with any payload texts", "why_tests_cant": "Payload texts are arbitrary; a payload could imitate the prefix of another variant.", "anchors": [{"file": "core/src/types.rs", "symbols": ["DIDError"]}, {"file": "core/src/account/mod.rs", "symbols": ["AccountError"]}, {"file": "core/src/did/mod.rs", "symbols": ["DID::from_keysecure"]}, {"file": "core/src/verifiable/proof/types.rs", "symbols": ["ProofError"]}, {"file": "core/src/keys/secure.rs", "symbols": ["Error"]}]}
{"id": "C66", "title": "Query parameters as JSON", "statement": "Params is written as an object with the members address and hl in this order, null where absent; it is read back from exactly those texts in which each of the two members occurs at most once (absent or null meaning none), other members being ignored; writing and reading back gives the same value, and so the same URI.", "quantifier": "every parameter record and every byte string read", "why_tests_cant": "Unbounded texts and member combinations.", "anchors": [{"file": "core/src/did/query.rs", "symbols": ["Params"]}]}
{"id": "C67", "title": "Key pairs and stored keys", "statement": "Pairs::decode_pub_key and decode_public_key return k exactly if the text of the pair is a multibase text of a hex text of k, and have one error; a generated pair decodes to its own key. build_keysecure returns exactly the record of the PEM text (hex secret) made with the given password and randomness, or BuildKeySecureError. decrypt_verification and decrypt_agreement return exactly what their own record decrypts to, failing with DecryptError otherwise; a record of a plaintext decrypts to it alone. The account reader accepts a verification record exactly if decrypt_verification gives the UTF-8 text of a readable PEM.", "quantifier": "every pair, record, password and randomness", "why_tests_cant": "Acceptance over all texts and records, in both directions.", "anchors": [{"file": "core/src/keys/verification.rs", "symbols": ["Pairs::decode_pub_key", "Pairs::build_keysecure"]}, {"file": "core/src/keys/agreement.rs", "symbols": ["Pairs::decode_public_key", "Pairs::build_keysecure"]}, {"file": "core/src/keys/secure.rs", "symbols": ["PrivateKeyPairs::decrypt_verification", "PrivateKeyPairs::decrypt_agreement"]}, {"file": "core/src/account/mod.rs", "symbols": ["Account::from_keysecure"]}]}
{"id": "C68", "title": "Which error, in which order", "statement": "A failing add_proof or verify_proof returns the error of the first failing check, with its exact text. add_proof: type, cryptosuite present, cryptosuite, created present, created, members of the document in order, purpose. verify_proof: bytes are read, proof present, type present, purpose known, purpose as expected, multibase, type, cryptosuite, members of the document, created, signature library. If no check fails there is no error.", "quantifier": "every document, option record, byte string, key and purpose, with any number of simultaneous faults", "why_tests_cant": "Orderings of simultaneous faults grow combinatorially.", "anchors": [{"file": "core/src/verifiable/proof/integrity.rs", "symbols": ["Integrity::add_proof", "Integrity::verify_proof"]}, {"file": "core/src/verifiable/proof/eddsa.rs", "symbols": ["EddsaJcs2022::create_proof", "EddsaJcs2022::verify_proof"]}, {"file": "core/src/verifiable/proof/mod.rs", "symbols": ["Proof::validate", "Proof::validate_type", "Proof::validate_cryptosuite", "Proof::validate_created"]}, {"file": "core/src/verifiable/vc.rs", "symbols": ["VC::validate"]}, {"file": "core/src/verifiable/vp.rs", "symbols": ["VP::validate"]}]}
{"id": "C69", "title": "Traces of many parties with the URI as trust root", "statement": "In every interleaving of parties building keys, using them, publishing DID URIs with the hashlink of their document, and verifiers checking received bytes: a verifier that starts from a published URI, checks whatever document it received against the hashlink, takes the key of a slot and accepts a VC (VP), has accepted what the publisher itself signed before with the key of that slot and with those options (up to number spelling), or there is an explicit BLAKE3 or SHA-256 collision, a forged signature, a raw signature on the 64 byte message, or another slot with the same public key. Keys stay in their slots.", "quantifier": "every trace, any number of parties, every received document and byte string", "why_tests_cant": "Unbounded interleavings and adversarial inputs.", "anchors": [{"file": "core/src/did/mod.rs", "symbols": ["DID::build_uri", "DID::parse_uri"]}, {"file": "core/src/hashlink.rs", "symbols": ["generate_from_json", "verify_from_json"]}, {"file": "core/src/identity/mod.rs", "symbols": ["Identity::build_auth_method", "Identity::build_assertion_method", "Identity::to_doc"]}, {"file": "core/src/doc/mod.rs", "symbols": ["Primary::decode_pub_key"]}, {"file": "core/src/verifiable/proof/integrity.rs", "symbols": ["Integrity::add_proof", "Integrity::verify_proof"]}]}
{"id": "C70", "title": "Any document type, any cryptosuite", "statement": "Integrity works for document types and cryptosuites the library does not know. For every suite, add_proof returns exactly the document with the proof the suite made when that proof has a type and a known purpose, passes on the suite's error, and has exact texts otherwise; verify_proof returns what the suite returns, but asks it only about documents that are read, carry a proof with type and purpose, and have the expected purpose. The built-in suite signs every document type whose proof accessors obey five equations (VC and VP do): signed documents are accepted and give back the document, the document given back can be signed again by any key for any purpose, and two accepted texts with the same signature bytes have the same canonical text, options and purpose, or exhibit a collision or a signature accepted for two messages.", "quantifier": "every document type, suite, document, option record, byte string and key", "why_tests_cant": "Users of the traits can supply any implementation; tests know two.", "anchors": [{"file": "core/src/verifiable/proof/integrity.rs", "symbols": ["Integrity::add_proof", "Integrity::verify_proof"]}, {"file": "core/src/verifiable/proof/types.rs", "symbols": ["Proofable", "CryptoSuiteBuilder"]}, {"file": "core/src/verifiable/proof/eddsa.rs", "symbols": ["EddsaJcs2022::create_proof", "EddsaJcs2022::verify_proof"]}, {"file": "core/src/verifiable/vc.rs", "symbols": ["VC::setup_proof", "VC::remove_proof"]}, {"file": "core/src/verifiable/vp.rs", "symbols": ["VP::setup_proof", "VP::remove_proof"]}]}
{"id": "C71", "title": "The cryptosuite called directly", "statement": "EddsaJcs2022 without Integrity. create_proof on a VC (VP) succeeds exactly for good options and a complete document and returns the options with the base58 signature as proof value; otherwise it returns the error of the first failing check. verify_proof accepts exactly the documents whose proof has good options and a value the key accepts for the signed bytes, returns the document without proof, and otherwise the error of the first failing check, 'missing proof from given document' being the first. The suite asks for no purpose: proofs with the unknown purpose are made and verified by it, while Integrity accepts no document carrying one.", "quantifier": "every key, document and option record", "why_tests_cant": "Acceptance and error precedence over all inputs; tests go through mocks or fixed documents.", "anchors": [{"file": "core/src/verifiable/proof/eddsa.rs", "symbols": ["EddsaJcs2022::create_proof", "EddsaJcs2022::verify_proof"]}, {"file": "core/src/verifiable/proof/types.rs", "symbols": ["CryptoSuiteBuilder"]}]}
{"id": "C72", "title": "Which failure the readers of stored keys, hash links and JSON bytes report", "statement": "For every input: Account::from_keysecure fails exactly when one of its steps does (cipher text not hex, key derivation, nonce not hex, nonce not 24 bytes, decryption, not UTF-8, not a PEM), in this order, with exactly the error of the first failing step; DID::from_keysecure wraps that error's text; decrypt_verification and decrypt_agreement report the failure of their own record; hashlink::verify_from_json reports first an error of the data, then no multibase, another base, another digest; generate_from_json fails only with the error of the data; JSONValue::try_from fails exactly on bytes that are not UTF-8.", "quantifier": "every record, password, text, byte string and data", "why_tests_cant": "Each test hits one failing step; the claim fixes the error for every combination of failing steps and that there is no other failure.", "anchors": [{"file": "core/src/account/mod.rs", "symbols": ["Account::from_keysecure"]}, {"file": "core/src/did/mod.rs", "symbols": ["DID::from_keysecure"]}, {"file": "core/src/keys/secure.rs", "symbols": ["PrivateKeyPairs::decrypt_verification", "PrivateKeyPairs::decrypt_agreement"]}, {"file": "core/src/hashlink.rs", "symbols": ["generate_from_json", "verify_from_json"]}, {"file": "core/src/types.rs", "symbols": ["JSONValue"]}]}
{"id": "C73", "title": "Interoperability with the W3C cryptosuite eddsa-jcs-2022", "statement": "A document signed by this library is a proof by the W3C Recommendation (Data Integrity EdDSA Cryptosuites, 3.3) and the other way round. (Full claim, false of the code: the signed configuration carries an empty member proofValue, which the Recommendation removes, and never the @context. Hence no document signed here is accepted there, by any key, and nothing signed there is accepted here, unless a SHA-256 collision or a signature valid for two messages is exhibited. What holds: the message is the hash of the configuration followed by the hash of the canonical document without proof, and the configuration differs in that member only.)", "quantifier": "every key, document, option record, context, received byte string and purpose", "why_tests_cant": "Tests of the repository verify with the same code that signs; non-interoperability for all inputs needs injectivity of the canonical text.", "anchors": [{"file": "core/src/verifiable/proof/eddsa.rs", "symbols": ["EddsaJcs2022::create_proof", "EddsaJcs2022::verify_proof"]}, {"file": "core/src/verifiable/proof/mod.rs", "symbols": ["Proof::remove_proof_value"]}, {"file": "core/src/verifiable/proof/integrity.rs", "symbols": ["Integrity::add_proof", "Integrity::verify_proof"]}]}
{"id": "C74", "title": "Lengths of the produced texts", "statement": "Every DID has 99 or 100 characters, every hashlink 47 and starts with zgV or zgW, every published key (of 32 bytes) 88 or 89, every signature text (of 64 bytes) 65 to 89, and a DID URI with a hashlink 150 or 151.", "quantifier": "all keys, call histories, documents and hashed texts", "why_tests_cant": "Which lengths occur depends on the number a digest stands for; tests see the lengths of a few random keys.", "anchors": [{"file": "core/src/did/mod.rs", "symbols": ["DID::identity", "DID::build_uri"]}, {"file": "core/src/hashlink.rs", "symbols": ["generate_from_json"]}, {"file": "core/src/keys/verification.rs", "symbols": ["Key::generate"]}, {"file": "core/src/verifiable/proof/serialize.rs", "symbols": ["ProofByte::encode"]}]}
{"id": "C75", "title": "A DID document does not show who controls the DID", "statement": "The account key, whose hash is the DID, takes no part in the DID document: a check of documents against the DID and the account's public key that accepts all documents the owner can make accepts all documents anybody makes for this DID. With keys of their own anybody makes a document with that DID as id and controller of all entries, whose key verifies credentials they sign with that DID as issuer. The hashlink of the owner's document accepts another party's document only if it publishes the owner's keys, or BLAKE3 collides.", "quantifier": "every account, call history, key, credential, options and every predicate as check", "why_tests_cant": "A statement about all possible checks and all parties' keys; no test can range over predicates.", "anchors": [{"file": "core/src/did/mod.rs", "symbols": ["DID::identity"]}, {"file": "core/src/identity/mod.rs", "symbols": ["Identity::new", "Identity::build_assertion_method", "Identity::to_doc"]}, {"file": "core/src/hashlink.rs", "symbols": ["verify_from_json"]}]}
{"id": "C76", "title": "Which error variants each operation returns", "statement": "For each operation of the library that returns a Result the set of error variants it returns is exactly the one of a literal table (54 entries, the remaining operations never fail): every error of every call is in the table and every entry occurs. Each variant of the six error types is returned by some operation or is in a literal list of 21 variants that nothing returns, among them InvalidDomainError, InvalidChallengeError, ProofInvalid and GenerateHashLinkError; a wrong signature is no error at all.", "quantifier": "every call of every operation in every environment whose hash functions have their digest lengths", "why_tests_cant": "That a variant is never returned is a claim about all inputs of all operations; callers match on variants.", "anchors": [{"file": "core/src/types.rs", "symbols": ["DIDError"]}, {"file": "core/src/account/mod.rs", "symbols": ["AccountError"]}, {"file": "core/src/verifiable/proof/types.rs", "symbols": ["ProofError"]}, {"file": "core/src/keys/secure.rs", "symbols": ["Error"]}, {"file": "core/src/keys/verification.rs", "symbols": ["Error"]}, {"file": "core/src/keys/agreement.rs", "symbols": ["Error"]}, {"file": "core/src/verifiable/proof/integrity.rs", "symbols": ["Integrity::add_proof", "Integrity::verify_proof"]}, {"file": "core/src/hashlink.rs", "symbols": ["generate_from_json", "verify_from_json"]}]}
{"id": "C77", "title": "Complete list of reasons for which a text is refused", "statement": "The reader of credentials, of presentations and of DID documents refuses a text exactly if it is not JSON or for one reason of an explicit list (wrong kind, wrong number of elements, a name that stands for no text, a repeated member, a missing or ill-typed member, a number out of range, too deep nesting, an ill-formed proof, credential or key inside). In particular documents in forms that the W3C data models allow are refused, whatever else they contain, and verification returns ProofGenerationError: a single string as @context or type, an embedded context, an issuer or holder object, a missing id, a proof set, a proof without id, a single credential or none; for DID documents a missing context, a key by reference or in another format. verificationMethod, keyAgreement, controller and service of a DID document are skipped.", "quantifier": "every byte string; every object with any further members", "why_tests_cant": "A complete list of reasons is a statement about all texts in both directions.", "anchors": [{"file": "core/src/verifiable/vc.rs", "symbols": ["VC"]}, {"file": "core/src/verifiable/vp.rs", "symbols": ["VP"]}, {"file": "core/src/doc/mod.rs", "symbols": ["Doc"]}, {"file": "core/src/verifiable/proof/mod.rs", "symbols": ["Proof"]}, {"file": "core/src/verifiable/proof/integrity.rs", "symbols": ["Integrity::verify_proof"]}]}
{"id": "C78", "title": "The assumptions about hashing and encryption hold of the algorithms in use", "statement": "For SHA-256, SHA-384 (FIPS 180-4), BLAKE3 and XChaCha20-Poly1305, written out in full: every digest has its length and decryption gives exactly the text that encrypts to the cipher text. Hence, without any assumption about them: the form of every DID, existence and uniqueness of hashlinks, from_keysecure returns an account exactly for records that encrypt a PEM of it under the password, an exported key is restored, its cipher text has 2n+32 characters for a PEM of n bytes, and is the only one for its secret, nonce, salt and parameters up to letter case.", "quantifier": "every byte string, key, nonce, record, password and account", "why_tests_cant": "That a cipher accepts nothing but its own output is a statement about all cipher texts.", "anchors": [{"file": "core/src/did/mod.rs", "symbols": ["DID::identity"]}, {"file": "core/src/hashlink.rs", "symbols": ["generate_from_json", "verify_from_json"]}, {"file": "core/src/account/mod.rs", "symbols": ["Account::from_keysecure"]}, {"file": "core/src/keys/verification.rs", "symbols": ["Pairs::build_keysecure"]}]}
{"id": "C79", "title": "The assumptions about signatures hold of Ed25519; what follows without any assumption about signatures", "statement": "For Ed25519 as in RFC 8032 (SHA-512, the group law of the curve, encoding and decoding of points, signing and verifying, all written out): every signature made with a key pair is accepted under its public key and every public key is read back from its bytes. Hence, without any assumption about signatures: signed credentials and presentations are accepted; public keys have 32 and signatures 64 bytes; acceptance is the equation sB = R + hA between points of the curve; a document accepted under the signer's key with the signature of another document shows a collision of SHA-256 or of SHA-512 modulo the group order on explicit texts; of all signatures with the same first 32 bytes at most one is accepted. And a negative fact: if verification is that of RFC 8032 for all points, there are a public key and one proof value under which every complete document is accepted although nobody signed it.", "quantifier": "every seed, message, signature, document, options and byte string", "why_tests_cant": "Correctness of a signature scheme is a statement about all keys and messages and rests on the group law of the curve; a key that accepts everything is not among the keys that tests generate.", "anchors": [{"file": "core/src/verifiable/proof/eddsa.rs", "symbols": ["EddsaJcs2022::create_proof", "EddsaJcs2022::verify_proof"]}, {"file": "core/src/verifiable/proof/serialize.rs", "symbols": ["serialize_hashed_data"]}, {"file": "core/src/verifiable/proof/verifier.rs", "symbols": ["verify_signature"]}, {"file": "core/src/account/mod.rs", "symbols": ["Account::signature"]}]}
{"id": "C80", "title": "Numbers with a fraction in credential subjects", "statement": "For finite doubles written as by ryu and ryu-js and read as by serde_json (without float_roundtrip), written out in full: both texts stand for a decimal to which the number is the nearest double, with as few digits as possible and the closest of those; different numbers have different texts, except that both zeros have one canonical text; an integer with the canonical text of a floating point number has the sign of that number, which is the double nearest to it. A text with digits below 2^53 and power of ten at most 22 in magnitude is read correctly rounded. Numbers that are decimals of at most 15 digits, at most 22 after the point, are read back from both texts, so signed credentials and presentations with such numbers are accepted from their JSON text and from their canonical text. Not every number is: 9007199254740991.0 is read as 9007199254740990. A signed document accepted from its own JSON text has only numbers that are read back, or shows a collision of hashes: one number that is not makes the signature worthless once the document is sent.", "quantifier": "every finite double, number text, document and key", "why_tests_cant": "There are 2^64 doubles; tests use no number with a fraction, and one that is not read back is found only by looking for it.", "anchors": [{"file": "core/src/verifiable/vc.rs", "symbols": ["VC::to_json", "VC::to_jcs", "VC::parse_json_bytes", "VC::set_credential"]}, {"file": "core/src/verifiable/vp.rs", "symbols": ["VP::to_json", "VP::to_jcs", "VP::parse_json_bytes"]}, {"file": "core/src/verifiable/proof/integrity.rs", "symbols": ["Integrity::add_proof", "Integrity::verify_proof"]}]}
{"id": "C81", "title": "Private key texts and agreement keys by the standards", "statement": "For private keys written as PEM texts of RFC 8410 keys (with or without the public key) and agreement keys of RFC 7748, written out in full: an account writes a text of 119 or 168 characters that is a PEM text of its secret bytes, and different accounts write different texts. Every PEM text of an Ed25519 private key, whoever wrote it, is read and gives the account with these secret bytes; with and without the public key it is the same account and the same DID, which is the hash of the Ed25519 public key of the secret. An account is restored from every record that encrypts such a text of its secret; its own exports are such records, with cipher texts of 270 or 368 characters (160 for an agreement key). The stored secrets of an identity give its published keys by the standards alone, which are texts of 88 or 89 characters. The export of an identity fails only if key derivation gives no 32 bytes. With everything written out, documents, stored keys and signatures of an identity work together with no law left to assume.", "quantifier": "every secret, PEM text, record, sequence of calls and document", "why_tests_cant": "Tests export and import their own keys with one library; they never import a key made by another program nor compare the published keys with the standards.", "anchors": [{"file": "core/src/account/mod.rs", "symbols": ["Account::build_pem", "Account::from_pem", "Account::from_keysecure"]}, {"file": "core/src/keys/verification.rs", "symbols": ["Pairs::build_keysecure"]}, {"file": "core/src/keys/agreement.rs", "symbols": ["Pairs::build_keysecure"]}, {"file": "core/src/identity/mod.rs", "symbols": ["Identity::build_private_keys", "Identity::to_doc"]}, {"file": "core/src/did/mod.rs", "symbols": ["DID::from_pem"]}]}
{"id": "C82", "title": "Every spelling of proof values and keys", "statement": "For the bases of the crate `multibase`, written out in full (23 bases; groups of bits, numbers, padded blocks): a text is decoded exactly when it is the letter of a base followed by a text of the bytes in that base, and refused otherwise. Without padding, and letters read as they are, a byte string has one text in each base (in the identity base only if it is UTF-8); a padded text may be cut into padded blocks at will. The number of all texts of a byte string is given exactly; a base that takes letters of either case doubles its texts for every letter. A signed credential or presentation is accepted with each of at least 13332121089964925202 proof values, finitely many, made from its own without the key; each published key is decoded alike from at least 13332121089964925203 texts; a hashlink has one text.", "quantifier": "every base, text, byte string, signed document, identity after any calls and value with a hashlink", "why_tests_cant": "Tests decode what the library encoded, in base58btc; no number of tests can count the texts of a signature.", "anchors": [{"file": "core/src/verifiable/proof/eddsa.rs", "symbols": ["EddsaJcs2022::verify_proof"]}, {"file": "core/src/doc/mod.rs", "symbols": ["Primary::decode_pub_key"]}, {"file": "core/src/hashlink.rs", "symbols": ["verify_from_json"]}]}
{"id": "C83", "title": "Which creation dates are accepted", "statement": "For the date reader of chrono, written out in full (`DateTime<Utc>` from a text): a text is accepted exactly if it is a date text of an explicit grammar (one to four digits of the year, or a sign and any number of digits up to the range of dates, an existing day of the calendar with leap years, separators with blanks, optional fraction, `Z`, `UTC` or an offset). Options are fit for signing exactly if, besides type and suite, their creation date is such a text; with any other nothing is signed and nothing verifies. Every RFC 3339 date is accepted. Of the dateTimeStamps of XML Schema, which the Recommendation asks for, those without a sign are exactly if the year has four digits and the hour is not 24; behind a sign, which XML Schema allows only before negative years, the year may be any within the range. So the year 10000 is accepted only in the form with +, which is no dateTimeStamp. And `Utc::now().to_string()`, which the tests of the repository use, is accepted although it is neither: every complete document is signed and verified with such a date.", "quantifier": "every text, options, document and key", "why_tests_cant": "The tests use the current time and one bad text; which texts are accepted is a statement about all texts in both directions.", "anchors": [{"file": "core/src/verifiable/proof/mod.rs", "symbols": ["Proof::validate_created"]}, {"file": "core/src/verifiable/proof/config.rs", "symbols": ["generate_proof_config"]}, {"file": "core/src/verifiable/proof/eddsa.rs", "symbols": ["EddsaJcs2022::create_proof", "EddsaJcs2022::verify_proof"]}]}
{"id": "C84", "title": "Network addresses in DID URIs", "statement": "For the address reader of the crate multiaddr, written out for IP addresses, ports, host names, peers (p2p) and the protocols without value: a text is read as a list of components exactly if it is the text of that list by an explicit grammar, and a text has one reading; after an address nothing but an address may follow (no slash at the end, no unknown protocol, no name without its value). An IPv4 address has one text and so has a peer, a port infinitely many. The address in a URI that build_uri makes comes back from parse_uri, and with the same components, exactly if no host name in it contains ?, & or =; so every address without host names does. A valid address whose host name is host&hl=link gives the very URI of the address with host and the hashlink link, and is read as that although no hashlink was set.", "quantifier": "every text, list of components, DID and hashlink", "why_tests_cant": "The tests parse one valid and one invalid address and never put a parsed address into a URI; which texts are accepted and which survive is a statement about all of them.", "anchors": [{"file": "core/src/did/query.rs", "symbols": ["Params::parse_multiaddr", "Params::build_query"]}, {"file": "core/src/did/mod.rs", "symbols": ["DID::build_uri", "DID::parse_uri"]}]}
{"id": "C85", "title": "Agreement keys serve key agreement", "statement": "For any two identities with any histories of calls, exported with any passwords: the secret for key agreement restored from a slot of one export and the X25519 key published in a slot of the other document give, by the function X25519, the same 32 bytes on both sides. These are the u-coordinate of the multiple of the base point of curve25519, in the group of points of the curve, by the product of the scalars of the two secrets, and never the all-zero value; published keys are the multiples by one scalar. Two documents publish the same agreement key exactly if the scalars are equal or add up to eight times the order of the base point, and then the two holders share the same secret with everybody else. So a published key is that of at most two scalars.", "quantifier": "every two identities, histories, passwords and randomness", "why_tests_cant": "The code never computes a shared secret and no test does; that all pairs of keys work, and which keys coincide, is algebra in the group of the curve.", "anchors": [{"file": "core/src/identity/mod.rs", "symbols": ["VerificationMethod", "Identity::build_private_keys", "Identity::to_doc"]}, {"file": "core/src/doc/mod.rs", "symbols": ["Primary::decode_pub_key"]}]}
{"id": "C86", "title": "Equality of documents", "statement": "`==` on credentials and on presentations is reflexive, symmetric and transitive. It holds exactly if all texts, lists, identifiers and proofs are the same and the subjects differ at most in the sign of zeros: numbers must be equal in value and of the same kind, 30 and 30.0 are different. Equal documents have the same canonical text, so with the same key and options they get the same proof and the signed documents are equal again. Conversely documents with the same canonical text are equal exactly if doubles stand at the same places in both. The document read back from the canonical text is equal to the one written exactly if none of its doubles is written like an integer.", "quantifier": "every two documents, keys, proof options", "why_tests_cant": "Tests compare the documents they built with assert_eq!; that equal documents sign alike, and which documents are equal to what is read back from their canonical text, is about all numbers.", "anchors": [{"file": "core/src/verifiable/vc.rs", "symbols": ["VC", "VC::to_jcs"]}, {"file": "core/src/verifiable/vp.rs", "symbols": ["VP", "VP::to_jcs"]}, {"file": "core/src/verifiable/proof/mod.rs", "symbols": ["Proof"]}, {"file": "core/src/verifiable/proof/integrity.rs", "symbols": ["Integrity::add_proof"]}]}
{"id": "C87", "title": "Identifiers by the syntax of DID Core", "statement": "The DID of every key is a DID by the grammar of the Recommendation DID Core. The entries of the document of a DID, after any history of calls, are named by DID URLs made of the DID and a fragment, and their controller is the DID. What build_uri makes is a DID URL of the DID, with a query and without a fragment, exactly if the values consist of characters of a query and percent-encodings: nothing is escaped. Values of any content that are percent-encoded first give a DID URL, parse_uri returns the encoded values, and decoding these gives the bytes of the values. parse_uri finds the DID of a DID URL exactly if the URL has no path and no fragment directly behind the DID. A fragment behind the query is taken for part of the last value, so that a hashlink there is satisfied by no data.", "quantifier": "every key, history of calls, parameters, DID URL, fragment", "why_tests_cant": "Tests parse the URIs they built from clean values and never a DID URL with a path or a fragment; the grammar is a statement about all texts.", "anchors": [{"file": "core/src/did/mod.rs", "symbols": ["DID::identity", "DID::build_uri", "DID::parse_uri"]}, {"file": "core/src/did/query.rs", "symbols": ["Params::build_query"]}, {"file": "core/src/identity/mod.rs", "symbols": ["Identity::to_doc"]}, {"file": "core/src/hashlink.rs", "symbols": ["verify_from_json"]}]}
{"id": "C88", "title": "Published keys and the key suites named by the documents", "statement": "The documents name the W3C contexts of Ed25519VerificationKey2020 and X25519KeyAgreementKey2020, which define publicKeyMultibase as the multibase text of a multicodec prefix and the 32 bytes of the key. The library does not follow them, in either direction: decode_pub_key refuses every entry whose key is written as the suites say, in any base and for any key, and every entry with the 32 bytes alone; and no entry of a document the library writes has a key text that is, by the suites, the text of any key.", "quantifier": "every entry, key, base, history of calls", "why_tests_cant": "The tests decode only keys the library encoded; that no key of another implementation is readable, and none of this library's by others, is about all keys and texts.", "anchors": [{"file": "core/src/doc/mod.rs", "symbols": ["Primary::decode_pub_key", "Primary"]}, {"file": "core/src/identity/mod.rs", "symbols": ["Identity::to_doc", "Identity::build_auth_method", "Identity::build_assertion_method"]}, {"file": "core/src/keys/verification.rs", "symbols": ["Pairs"]}, {"file": "core/src/keys/agreement.rs", "symbols": ["Pairs"]}]}
{"id": "C89", "title": "How far numbers move when documents are sent", "statement": "A finite double written as JSON text by the library is always read back, with the same sign and at most three places away in the order of doubles; from 10^-291 upwards at most two places, a change of at most a 2^50th of its value. So a complete credential or presentation is always read from its own JSON text (subjects nested at most 126 or 124 deep), the same but for its floating point numbers, which stay that close; sent on n times, by at most 3n places. From its canonical text it is always read as well: integers as they are, doubles as an integer of which they are the nearest double, or as a double as close as above. Two places in one step do occur, some numbers move one place further each time, and some change every time, for ever.", "quantifier": "every double, complete document, number of times it is sent", "why_tests_cant": "Tests use numbers that are read back exactly; the bound is about all 2^64 doubles and any number of relays.", "anchors": [{"file": "core/src/verifiable/vc.rs", "symbols": ["VC::to_json", "VC::parse_json_bytes"]}, {"file": "core/src/verifiable/vp.rs", "symbols": ["VP::to_json", "VP::parse_json_bytes"]}]}
{"id": "C90", "title": "Stored keys by RFC 9106", "statement": "With key derivation by Argon2id (RFC 9106, written out) and XChaCha20-Poly1305, what a stored key opens to is decided by the standards alone: decryption of a key of an export, and restoring an account, succeed exactly if the costs written in the record are in the range of the RFC and ask for 32 bytes, the salt text has at least eight bytes, the nonce is the hex text of 24 bytes, and the cipher text is, in hex, the encryption of the plain text under the key Argon2id makes of password and salt at these costs. Whoever made such a record of a PEM text of an Ed25519 key, the account restored has that key. A record that asks for another key size never opens. No cost in range is refused: every account is restored from a suitable record at any cost. An export succeeds exactly if the default costs are in range and ask for 32 bytes and each salt drawn has eight bytes.", "quantifier": "every password, record, account, identity history and randomness", "why_tests_cant": "Tests export and restore with one password at the default costs.", "anchors": [{"file": "core/src/account/mod.rs", "symbols": ["Account::from_keysecure"]}, {"file": "core/src/keys/secure.rs", "symbols": ["PrivateKeyPairs::decrypt_verification", "PrivateKeyPairs::decrypt_agreement"]}, {"file": "core/src/identity/mod.rs", "symbols": ["Identity::build_private_keys"]}]}
{"id": "C91", "title": "Documents by the W3C data models", "statement": "The code refers to the Verifiable Credentials Data Model 2.0, Data Integrity 1.0 and DID Core. The JSON text and the canonical text of a credential are a credential by the data model exactly if the first context is https://www.w3.org/ns/credentials/v2, the other contexts, id and issuer are URIs, VerifiableCredential is among the types, the subject is an object with members or a non-empty array of such, and the proof, if any, has URIs for id and verificationMethod and a cryptosuite where its type needs one; likewise presentations, with every credential inside. None of this is checked: under every key a credential with none of it is signed, and accepted as sent. A text by the data model that is read is by the data model when written again; texts by the data model with an issuer object, a context object, a single type or without id are refused. The document of every DID, after any history of calls, is a DID document by DID Core; no document has a keyAgreement member, and as soon as a key has been made the keys for key agreement are listed for authentication or assertion.", "quantifier": "every credential, presentation, document, key pair, text and history of calls", "why_tests_cant": "Tests compare single documents with expected texts and do not look at the data models.", "anchors": [{"file": "core/src/verifiable/vc.rs", "symbols": ["VC", "VC::validate", "VC::to_json"]}, {"file": "core/src/verifiable/vp.rs", "symbols": ["VP", "VP::validate", "VP::to_json"]}, {"file": "core/src/doc/mod.rs", "symbols": ["Doc"]}, {"file": "core/src/identity/mod.rs", "symbols": ["Identity::to_doc"]}]}
{"id": "C92", "title": "The standards determine the library: two builds on conforming dependencies agree", "statement": "Take two builds of the library whose dependencies each follow the standards of C78-C84 and C90 (SHA, multihash, base58, hex, RFC 8032, RFC 8410 and RFC 7468, IEEE doubles with shortest digits and RFC 8785, RFC 9106, the date grammar, multibase, multiaddr), and differ in anything else: representation of keys and numbers, error texts, default costs, form of written private keys. A credential or presentation held by both has one JSON text, one canonical text and one verdict of validate; every text is read by both to the same document or by neither; from one secret both get one DID, one DID URL, one DID document and one signed document; every text is accepted by both or by neither, with the same document, under keys that belong to a secret and, if both verify as RFC 8032 says for every key, under all keys that are points; every digest text is the same; addresses, PEM texts, published entries and stored keys open to the same things. What one build exports a second restores and signs with, and a third, reading only the document, accepts. Left open, with examples in two conforming builds: the PEM text of a private key (168 or 119 characters), dates in the last years of the range, letters of the other case in multibase texts, and what is accepted under keys of small order if one build refuses these.", "quantifier": "every two or three builds whose dependencies follow the standards; every secret, document, text, password and history of calls", "why_tests_cant": "Tests run one build against itself.", "anchors": [{"file": "core/src/verifiable/proof/integrity.rs", "symbols": ["Integrity::add_proof", "Integrity::verify_proof"]}, {"file": "core/src/verifiable/vc.rs", "symbols": ["VC::to_jcs", "VC::to_json", "VC::parse_json_bytes"]}, {"file": "core/src/verifiable/vp.rs", "symbols": ["VP::to_jcs", "VP::to_json", "VP::parse_json_bytes"]}, {"file": "core/src/did/mod.rs", "symbols": ["DID::identity", "DID::build_uri"]}, {"file": "core/src/identity/mod.rs", "symbols": ["Identity::to_doc"]}, {"file": "core/src/account/mod.rs", "symbols": ["Account::from_pem"]}, {"file": "core/src/hashlink.rs", "symbols": ["generate_from_json", "verify_from_json"]}]}
{"id": "C93", "title": "Which published keys bind: one signature, one document, under every public key but eight", "statement": "The points of the curve of Ed25519 are eight times as many as the multiples of its base point, and exactly eight public keys (listed) give the neutral point when multiplied by eight; no key pair has one of them. Under every other public key that is a point, whoever made it and whether or not it belongs to a key pair, a signature is accepted for one credential or presentation only: two accepted texts with the same signature bytes hold the same document and options, up to number spelling, or show a collision of SHA-256 or of SHA-512 modulo the order of the base point. Under all of them, the eight included, a signature cannot be altered in its second half. Verification only needs to accept nothing that RFC 8032 refuses. The eight keys do not bind: published in a document they are decoded like any other; with verification as in RFC 8032 the hash of a document counts only modulo eight under them, and to every number there is a proof value, found without any secret, that is accepted on every complete document whose hash is divisible by eight.", "quantifier": "every public key, every two texts accepted under it, every number", "why_tests_cant": "Tests use keys of key pairs.", "anchors": [{"file": "core/src/verifiable/proof/integrity.rs", "symbols": ["Integrity::sign", "Integrity::verify"]}, {"file": "core/src/verifiable/proof/eddsa.rs", "symbols": ["EddsaJcs2022::verify_proof"]}, {"file": "core/src/doc/mod.rs", "symbols": ["Primary::decode_pub_key"]}]}
{"id": "C94", "title": "What received agreement keys do: the value of X25519 on every 32 bytes, keys that give everybody zero, keys that amount to the same", "statement": "Any 32 bytes in an entry for key agreement are decoded as a key. From each of them X25519 computes the u-coordinate of the multiple, by the scalar of the secret, of a point of curve25519 (8 q points) or of its twist (4 q' points, q and q' prime). From keys with one of five listed u-coordinates everybody computes the all-zero value; from any other key nobody does. From any other key two secrets give the same value exactly if their scalars are equal or add up to 8 q (on the curve; so for restored secrets exactly if their documents publish the same key) or to 8 q' (on the twist). Two keys give the same value to one secret exactly if they do to all, namely if points with these u-coordinates differ by a point of order 1, 2, 4 or 8; keys that differ in the highest bit do. The keys the library publishes are on the curve, canonical and not among the five.", "quantifier": "every key of 32 bytes, every secret, every history of two identities", "why_tests_cant": "Tests use keys the library made, and never multiply with them.", "anchors": [{"file": "core/src/doc/mod.rs", "symbols": ["Primary::decode_pub_key", "Primary::decode_pub_key_agreement"]}, {"file": "core/src/keys/agreement.rs", "symbols": ["Pairs::decode_public_key"]}, {"file": "core/src/identity/mod.rs", "symbols": ["Identity::build_private_keys"]}]}
{"id": "C95", "title": "What proof values say about the secret key: repeated first halves give it away, and the signer repeats one only on a collision", "statement": "The first halves of the signatures of two documents signed with one key pair are equal exactly if SHA-512 of the second half of the hashed seed and the signed message gives the same number modulo the group order for both; so for two different documents, or different options, or a credential and a presentation, only with a collision of SHA-256 or of SHA-512 modulo the group order on explicit inputs. Bytes signed with the account's key count as well. Two texts (credentials or presentations) that verify under the public key of a key pair with the same first half and different hash numbers determine the secret scalar modulo the group order: it is the only solution of a linear equation in public numbers. So does one such text together with the number behind its first half, unless the hash number is zero. Any number equal to the secret scalar modulo the group order makes, without the seed and with any number behind the first half, proof values that are accepted for every complete credential and presentation with good options. Under every other public key that is a point two such texts also have one solution, and it makes proof values that are accepted for one hash in eight. A signature that verifies under one key pair verifies on the same message under another exactly if hash number times scalar is the same for both.", "quantifier": "every key pair, every two documents and options, every signature, every number behind the first half", "why_tests_cant": "Tests sign one document at a time and never compare two signatures.", "anchors": [{"file": "core/src/verifiable/proof/eddsa.rs", "symbols": ["EddsaJcs2022::create_proof", "EddsaJcs2022::verify_proof"]}, {"file": "core/src/account/mod.rs", "symbols": ["Account::signature"]}, {"file": "core/src/verifiable/vc.rs", "symbols": ["VC"]}, {"file": "core/src/verifiable/vp.rs", "symbols": ["VP"]}]}
{"id": "C96", "title": "What stored keys say without the password when salt and nonce repeat", "statement": "Two stored keys under one password with the same costs, salt and nonce have one key stream: the exclusive or of their cipher texts is the exclusive or of the private keys, byte by byte. So whoever knows how one of them begins reads as much of the other one from the two records, without the password; whoever reads one of two records of equal size restores the account of the other one; equal cipher texts are equal keys; and if the verification key and the agreement key of a method are stored this way, 49 of the 64 hex digits of the agreement secret are read by anyone. Two records made by the library are in this relation exactly if the salts and the nonces drawn by the two calls are equal; the four records of an identity use four separate draws, and if these differ pairwise no two of its records are in this relation.", "quantifier": "every two records, passwords, key pairs of either kind, salts and nonces, and every identity", "why_tests_cant": "Tests export one key at a time with fresh salts and nonces and never compare two records.", "anchors": [{"file": "core/src/keys/verification.rs", "symbols": ["Pairs"]}, {"file": "core/src/keys/agreement.rs", "symbols": ["Pairs"]}, {"file": "core/src/identity/mod.rs", "symbols": ["build_private_keys"]}, {"file": "core/src/account/mod.rs", "symbols": ["Account"]}]}
{"id": "C97", "title": "Stored keys whose cipher text was changed without the password are refused, but for a few of 2^106 numbers", "statement": "For every two different cipher texts there is a set of numbers, at most eight for each sixteen bytes, such that a stored key with the first cipher text and the same record with the second one can both be opened only if the number that authenticates (derived from password, costs, salt and nonce; one of 2^106) is in the set; the set depends on the two cipher texts only, not on password, salt, nonce or key. For the record of an account changed to any cipher text that is not longer, at most 96 numbers let the library restore any account; for the record of an agreement key at most 40 let it decrypt anything. A record of which only the last sixteen bytes were changed is always refused.", "quantifier": "every two cipher texts, all passwords, salts, nonces, costs and key derivations", "why_tests_cant": "Tests change one byte of one record; they cannot count the keys under which a change would pass.", "anchors": [{"file": "core/src/account/mod.rs", "symbols": ["Account"]}, {"file": "core/src/keys/secure.rs", "symbols": ["KeySecureBuilder"]}, {"file": "core/src/identity/mod.rs", "symbols": ["build_private_keys"]}]}
{"id": "C98", "title": "A stored key does not commit to its password: for any two passwords some record opens under both", "statement": "Take costs, salt and nonce of a stored key and two passwords. There is a cipher text that opens under both passwords exactly unless the two derived keys have the same authenticating number and different addends. Whenever the numbers differ, some cipher text of 480 characters is decrypted by decrypt_verification and decrypt_agreement with either password, to 224 bytes each, without an error. What such a record holds under the two passwords agrees at a place exactly if the two key streams agree there. So a record from which two passwords read the PEM text of a private key (in particular one made by the library for an account, opened with another password) exists only if their key streams agree on the first 49 and the last 27 bytes.", "quantifier": "all records, all pairs of passwords and key derivations, all cipher texts", "why_tests_cant": "The cipher texts that open under two keys are one in 2^128; tests try wrong passwords on records the library made and see them refused.", "anchors": [{"file": "core/src/keys/secure.rs", "symbols": ["KeySecureBuilder"]}, {"file": "core/src/account/mod.rs", "symbols": ["Account"]}, {"file": "core/src/identity/mod.rs", "symbols": ["build_private_keys"]}]}
{"id": "C99", "title": "One proof value under several public keys: when it is accepted, for how many keys, and what the signer then knows", "statement": "Take a credential or presentation that verifies under one public key. Its proof value is accepted under another key, on this or any other document, exactly when the hash numbers (SHA-512 of first half, key and message, modulo the group order) take both keys to the same point. A signature and a hash number other than zero leave room for at most as many keys as the greatest common divisor of the number and eight, so for one key if it is odd, the same for all documents. What verifies under a key other than the eight weak ones with a hash number other than zero verifies under none of the eight, whatever the document. And if what verifies under the key of a key pair verifies under another key as well, the holder of the key pair computes from its own scalar a number that makes accepted proof values for that other key.", "quantifier": "all public keys, all documents and signatures, all accounts", "why_tests_cant": "Tests try one wrong key; which keys a given proof value fits is a question about all points of the curve.", "anchors": [{"file": "core/src/verifiable/proof/integrity.rs", "symbols": ["Integrity::verify"]}, {"file": "core/src/verifiable/proof/eddsa.rs", "symbols": ["EddsaJcs2022::verify_proof"]}, {"file": "core/src/doc/mod.rs", "symbols": ["Primary::decode_pub_key"]}]}
{"id": "C100", "title": "The same documents under other verifiers of RFC 8032: with the factor eight, and strict", "statement": "RFC 8032 lets a verifier check its equation as it stands or multiplied by eight; strict verifiers also refuse keys and first halves among the eight points of small order. The strict one accepts only what the library accepts (given a dependency that checks the equation as it stands) and that only what the one with the factor accepts. What the library signs is accepted by all three, except that the strict one refuses a signature whose hash for the first half is zero. What only the one with the factor accepts are exactly signatures off by one of seven points. Whoever has the secret scalar can make for every credential and presentation a proof value which the one with the factor accepts and the library refuses. Under keys other than the eight the one with the factor, too, accepts a signature for documents with one hash number only and one second half for each first half.", "quantifier": "all credentials, presentations, key pairs, public keys, messages and signatures", "why_tests_cant": "Test vectors of one implementation never contain a signature another one judges differently; the inclusion is a statement about all signatures.", "anchors": [{"file": "core/src/verifiable/proof/integrity.rs", "symbols": ["Integrity::verify"]}, {"file": "core/src/verifiable/proof/eddsa.rs", "symbols": ["EddsaJcs2022::verify_proof", "EddsaJcs2022::create_proof"]}]}
{"id": "C101", "title": "A careful caller gets the claims the library does not keep by itself", "statement": "A reader that uses the library's own functions, a clock and a way to find keys, and checks five things (the text is the canonical text of what was read; the proof value starts with z; the expiry has not passed; the key is that of the verification method and the method is a fragment of the issuer or holder; credentials inside a presentation pass the same checks from their own canonical text) returns exactly the sound documents. Of these the full claims C38, C39, C40, C41 and C61 hold: base58btc, not expired, signed by a key of issuer or holder, credentials inside verified, no member outside the signature. Two returned texts with the same proof value and key are the same bytes, and a returned text with the proof value of a signed document is the canonical text of it, or there is an explicit collision or forgery. A signer that first removes an old proof and proof value keeps the full claim C37: all it signs verifies, and it signs whatever the library signs. What it signs for its own issuer or holder is returned by the careful reader, so the checks cost no honest document.", "quantifier": "all policies (clock, key lookup), credentials, presentations, options, byte strings, key pairs", "why_tests_cant": "That a set of checks is enough is a statement about every text an adversary could write; that it refuses no honest document is one about every document.", "anchors": [{"file": "core/src/verifiable/proof/integrity.rs", "symbols": ["Integrity::verify"]}, {"file": "core/src/verifiable/proof/eddsa.rs", "symbols": ["EddsaJcs2022::verify_proof"]}, {"file": "core/src/verifiable/proof/eddsa.rs", "symbols": ["EddsaJcs2022::create_proof"]}, {"file": "core/src/verifiable/vc.rs", "symbols": ["VC::to_jcs"]}, {"file": "core/src/verifiable/vp.rs", "symbols": ["VP::to_jcs"]}]}
{"id": "C102", "title": "Endorsed documents: the DID alone is enough to trust a signature", "statement": "If the owner of a DID signs the text of a document with the account key (after a tag longer than the 64 byte messages of proofs) and hands out text, public key and signature, a reader that knows only DIDs and received such bundles from anyone gets this, in every interleaving of endorsements, key uses and reads by any number of parties: the key found for a method of a party's DID is the key of a slot in a document that party endorsed before, and a VC (VP) the careful reader returns was signed before with such a key of its issuer (its holder, and each VC inside with a key of its issuer), with those options, up to number spelling; or SHA-384, BLAKE3 or SHA-256 collide on explicit inputs, a signature is forged, or a key signed just this message as raw bytes. With bundles of other accounts only nothing is read for a DID, so the impersonation of C75 fails. Honest bundles, VCs and VPs are accepted.", "quantifier": "all sets of parties, traces, collections of bundles, byte strings, clocks; all issuers and holders that are parties", "why_tests_cant": "Unforgeability over all interleavings and all bundles an adversary could send is not a statement about samples; C75 shows that without endorsements it is false.", "anchors": [{"file": "core/src/did/mod.rs", "symbols": ["DID::identity"]}, {"file": "core/src/account/mod.rs", "symbols": ["Account::signature"]}, {"file": "core/src/identity/mod.rs", "symbols": ["Identity::build_assertion_method"]}, {"file": "core/src/doc/mod.rs", "symbols": ["Primary::decode_pub_key"]}, {"file": "core/src/verifiable/proof/integrity.rs", "symbols": ["Integrity::verify"]}]}
{"id": "C103", "title": "Proofs by the W3C Recommendation through Integrity with a suite of the caller", "statement": "CryptoSuiteBuilder is a public trait. With a suite written after section 3.3 of the Recommendation (configuration without proofValue, base58btc only, created optional), Integrity::verify_proof accepts exactly the VCs and VPs the Recommendation accepts for some member @context of the proof and returns the document as signed, although the library's Proof cannot hold that member; Integrity::add_proof signs exactly the message of the Recommendation, whatever proof and proof value there were before. So the full claim of C73, false of the suite built in, holds with this one. Documents of other signers, with their contexts in the proof and further contexts added later, are accepted and given back as signed; the member @context in the text makes no difference to the reader. One signature has one document, one set of options and one context. No signature is accepted by both suites. The last three but for explicit collisions or signatures valid for two messages.", "quantifier": "all documents, options, keys, byte strings, contexts, date checks", "why_tests_cant": "Equality of two acceptance relations over all texts, and the search over contexts, which testing covers for a few documents only.", "anchors": [{"file": "core/src/verifiable/proof/integrity.rs", "symbols": ["Integrity::new"]}, {"file": "core/src/verifiable/proof/integrity.rs", "symbols": ["Integrity::add_proof"]}, {"file": "core/src/verifiable/proof/integrity.rs", "symbols": ["Integrity::verify_proof"]}, {"file": "core/src/verifiable/proof/types.rs", "symbols": ["CryptoSuiteBuilder"]}, {"file": "core/src/verifiable/proof/mod.rs", "symbols": ["Proof"]}, {"file": "core/src/verifiable/proof/eddsa.rs", "symbols": ["EddsaJcs2022"]}]}
{"id": "C104", "title": "Careful callers and keys: translation to the key suites, checked restore, checked agreement", "statement": "A caller can mend what C88, C90, C94 and C98 say of the library. Documents are translated to the W3C key suites of 2020 exactly if the library reads all their keys, and from them exactly if all keys are spelled as the suites say; only the key texts change, the keys read are those the suites mean, and both ways round the document comes back. The document of every history is translated, and what is published so, read and translated back works as the document itself does (C55). Keys restored with a check against the entry of the document sign what is accepted under the key in the document, whoever made the record and whatever the password, at costs the caller finds enough; secrets so restored agree with everybody on the values of the published key. Exports of an identity always pass. The checked agreement refuses exactly the keys from which everybody computes zero.", "quantifier": "all entries, documents, histories, records, passwords, cost checks, keys", "why_tests_cant": "Exact acceptance over all texts and records, and round trips for all documents; tests try a few.", "anchors": [{"file": "core/src/doc/mod.rs", "symbols": ["Primary::decode_pub_key"]}, {"file": "core/src/identity/mod.rs", "symbols": ["Identity::to_doc"]}, {"file": "core/src/keys/secure.rs", "symbols": ["PrivateKeyPairs"]}, {"file": "core/src/account/mod.rs", "symbols": ["Account::from_keysecure"]}]}
{"id": "C105", "title": "Replayed presentations and borrowed credentials, and questions that prevent both", "statement": "A proof names neither verifier nor occasion: members challenge, domain and nonce in the text of a proof change nothing; a presentation accepted by one verifier is accepted by all that find the same keys, as often as it is sent; and whoever has the text of a credential can present it as holder. A caller can mend this: the verifier asks a question (its name and a number), the holder writes it into the signed member id of the proof, and the verifier reads only answers to open questions whose credentials name the holder. Such texts answer at most one question of one verifier. In every history of a verifier no question is answered more often than asked, each text is accepted at most once if numbers are not repeated, and no text at two verifiers. In every interleaving of all parties, starting from the DID, an accepted answer was signed for just this question by the holder's key, not before it was asked, and different answers come from different signing events; the credentials are about the holder and issued by their issuers; but for explicit forgeries, collisions and raw signatures. Honest answers pass.", "quantifier": "all presentations, texts, policies, questions, histories of verifiers, traces of parties", "why_tests_cant": "Freshness and injective agreement are about all interleavings and all texts an attacker may send; tests replay a few messages.", "anchors": [{"file": "core/src/verifiable/proof/mod.rs", "symbols": ["Proof"]}, {"file": "core/src/verifiable/proof/types.rs", "symbols": ["ProofError"]}, {"file": "core/src/verifiable/vp.rs", "symbols": ["VP"]}, {"file": "core/src/verifiable/proof/integrity.rs", "symbols": ["Integrity::verify_proof"]}, {"file": "core/src/verifiable/proof/integrity.rs", "symbols": ["Integrity::add_proof"]}]}
{"id": "C106", "title": "A reader whose answer does not depend on the build, and an issuer whose texts all accept", "statement": "Builds of the library with other versions of its dependencies may differ on dates, multibase letters, weak keys and borderline signatures, so a text accepted by one may be refused by another. A caller can mend this: a reader that asks, besides what the careful reader of C101 asks, for a date of the form yyyy-mm-ddThh:mm:ssZ, and that neither the public key nor the first half of the signature is one of the points of small order, with checks that use no dependency. It accepts exactly the canonical texts whose proofs are in order by SHA-256 and the strict Ed25519 check. For every text all builds give the same answer with the same contents, even if their signature check is stricter than RFC 8032; the library's own verification and every other verifier accept what it accepts. An issuer that reads its own text back before publishing publishes exactly under the stated conditions on date, method, expiry, depth, numbers and nonzero signature scalars, and what it publishes is returned by the reader of every build that knows the same keys.", "quantifier": "all texts, tables of keys, purposes, credentials, presentations, options, key pairs, and all pairs of builds", "why_tests_cant": "Agreement of two builds is a statement about every text and every admissible version of the dependencies; tests run one build on some texts.", "anchors": [{"file": "core/src/verifiable/proof/integrity.rs", "symbols": ["Integrity::verify_proof"]}, {"file": "core/src/verifiable/proof/integrity.rs", "symbols": ["Integrity::add_proof"]}, {"file": "core/src/verifiable/proof/eddsa.rs", "symbols": ["EddsaJcs2022::verify_proof"]}, {"file": "core/src/verifiable/vc.rs", "symbols": ["VC"]}, {"file": "core/src/verifiable/vp.rs", "symbols": ["VP"]}]}
{"id": "C107", "title": "Raw signatures give proofs away; with a label they do not", "statement": "Account::signature signs any bytes, and a proof is a signature on 64 bytes computed without the key: so every credential and presentation the library would make with a key can be put together from one raw signature of it. A caller can mend this by signing bytes only with a label and the occasion before them. The bytes so signed have one occasion and one content and are never those signed for a credential, a presentation or an endorsement (C102). In every history of a key, a mark that checks was made for just these bytes and this occasion, and an accepted credential or presentation was signed as such, or a signature is forged or SHA-256 collides; and in every interleaving of all parties who sign bytes in no other way, starting from DIDs, the agreements of C102 and C105 hold without the exception of raw signatures, and a mark that checks was made before by the account of the DID.", "quantifier": "all accounts, documents, options, occasions, bytes, histories of a key, traces of parties", "why_tests_cant": "That no bytes an attacker may ask to be signed help to make a proof is a statement about all bytes and all histories.", "anchors": [{"file": "core/src/account/mod.rs", "symbols": ["Account::signature"]}, {"file": "core/src/verifiable/proof/hash.rs", "symbols": ["generate_hash"]}, {"file": "core/src/verifiable/proof/integrity.rs", "symbols": ["Integrity::verify_proof"]}]}
{"id": "C108", "title": "A caller can check the data model and the order of names", "statement": "The library checks neither what the W3C data model asks of credentials and presentations (C91) nor that RFC 8785 and Rust order the names in the subjects alike (C63). A caller can check both before it signs and after it reads. Its check of URIs takes exactly the URIs, its checks of credentials and presentations ask exactly what the data model asks of the fields, and its check of names is exact. Its signer signs exactly what the careful signer (C101) signs that is by the data model, with the new proof, and undisputed in its names; every text of it, JSON or canonical, is by the data model. Its reader returns exactly the sound credentials and presentations (C101) whose text is by the data model and whose names are undisputed; what the signer signs is among them. Signer and reader do the same under the member order of UTF-16 units and under that of code points.", "quantifier": "all texts, credentials, presentations, options, keys, policies, both member orders", "why_tests_cant": "That a check of the fields decides a property of all texts of a credential, and that two orders agree on all signed bytes, are statements about all credentials.", "anchors": [{"file": "core/src/verifiable/vc.rs", "symbols": ["VC::validate"]}, {"file": "core/src/verifiable/vp.rs", "symbols": ["VP::validate"]}, {"file": "core/src/verifiable/proof/integrity.rs", "symbols": ["Integrity::add_proof"]}, {"file": "core/src/verifiable/proof/integrity.rs", "symbols": ["Integrity::verify_proof"]}]}
{"id": "C109", "title": "Links: DID URIs with encoded values and a strict reader", "statement": "build_uri escapes nothing and parse_uri takes any text (C07, C09, C84, C87). A caller can put both right on top of the two functions: it percent-encodes the values before build_uri, and of the texts that parse_uri takes it accepts only those that it would write itself for a DID of the library. It reads exactly the links, given by a separate grammar, and makes exactly the link of its DID; so parameters of any content come back, a link says one thing in one way, and it is a DID URL of DID Core without path and fragment made of letters, digits and -._~:?&=%. Anything with another character, such as a fragment, is refused. parse_uri alone finds the DID and the encoded values in it. Addresses come back with their components whatever the host names contain, and whoever takes key and data by a link has the key of its maker and the data of the hashlink, or an explicit collision.", "quantifier": "all texts, DIDs, parameters of any content, addresses, JSON values", "why_tests_cant": "Parameters of any content and the refusal of all other texts cannot be enumerated.", "anchors": [{"file": "core/src/did/mod.rs", "symbols": ["DID::build_uri"]}, {"file": "core/src/did/mod.rs", "symbols": ["DID::parse_uri"]}, {"file": "core/src/did/query.rs", "symbols": ["Params::build_query"]}, {"file": "core/src/did/query.rs", "symbols": ["Params::parse_multiaddr"]}]}
{"id": "C110", "title": "A vault without repeated salts and nonces", "statement": "build_keysecure and build_private_keys draw salt and nonce anew at every call and look at no earlier record (C96). A caller can keep its records in a vault that compares costs, salt and decoded nonce before it takes a record, and calls build_private_keys again when one of the four records repeats. The comparison is exact; an export is kept exactly with the first call whose records fit, and refused exactly if every call failed or repeated. After every history of records from anywhere and exports with any draws no two kept records are on one pad, and nothing kept is lost; one key and one nonce open two kept records only if Argon2 gives this key for two different pairs of costs and salt. Over records of the library an export succeeds as soon as one call draws four values that differ from each other and from those drawn before.", "quantifier": "all histories of requests, records, identities, passwords and drawn values", "why_tests_cant": "Repetitions are too rare to be met by a test, and the histories are unbounded.", "anchors": [{"file": "core/src/keys/verification.rs", "symbols": ["Pairs"]}, {"file": "core/src/keys/agreement.rs", "symbols": ["Pairs"]}, {"file": "core/src/identity/mod.rs", "symbols": ["build_private_keys"]}, {"file": "core/src/keys/secure.rs", "symbols": ["IdentityPrivateKeyPairs"]}]}
{"id": "C111", "title": "The careful callers together", "statement": "The readers and signers of C101, C106 and C108 can be put together: one reader makes all their checks, and one issuer publishes only what this reader returns. The reader returns exactly the credentials (presentations) whose proof is as the standards have it under a key of the table that belongs to the issuer (holder), whose text is by the W3C data model, and whose names are in no doubtful order; so everything shown for the three readers holds of it. Credentials inside a presentation are returned by themselves as well. All builds on conforming dependencies give the same answer for every text, also under a stricter signature check, and so do the two orders of names. The issuer publishes exactly what that of C106 publishes that is by the data model with names in no doubtful order, so the checks do not get in each other's way; and what it publishes, the reader of every build returns.", "quantifier": "all texts, documents, options, keys, tables and pairs of builds", "why_tests_cant": "Agreement of all builds on all texts, and the absence of conflicts between checks, cannot be enumerated.", "anchors": [{"file": "core/src/verifiable/proof/integrity.rs", "symbols": ["Integrity"]}, {"file": "core/src/verifiable/vc.rs", "symbols": ["VC"]}, {"file": "core/src/verifiable/vp.rs", "symbols": ["VP"]}]}
{"id": "C112", "title": "Answers with all the checks", "statement": "The questions of C105 can be used together with the reader and issuer of C111. The text of a question is always a URI, so a proof that carries it is by the data model. The reader of answers returns exactly the presentations of C111 whose proof has the text of the question as identifier and whose credentials all have the holder as subject; what it returns, the reader of C105 returns too. All builds on conforming dependencies return the same answer for every text, and a wider table loses none. Bytes answer at most one question of one verifier for one purpose, whichever build and table reads them. The holder sends exactly what the issuer of C111 publishes for the question, if the credentials are about the holder; and what they send, every build reads as the answer to just this question.", "quantifier": "all questions, texts, presentations, options, keys, tables and pairs of builds", "why_tests_cant": "Replay to another verifier or another build ranges over all questions and all texts; no sample of them shows that none is answered twice.", "anchors": [{"file": "core/src/verifiable/proof/integrity.rs", "symbols": ["Integrity"]}, {"file": "core/src/verifiable/vp.rs", "symbols": ["VP"]}]}
