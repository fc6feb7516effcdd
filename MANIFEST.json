{
 "claims": [
  {
   "property": "C01",
   "status": "proved",
   "theorems": [
    "Verif.Props.C01_identity_syntax"
   ],
   "note": "Payload described independently (IsHex, IsMultibase58). Laws: digest lengths."
  },
  {
   "property": "C02",
   "status": "proved",
   "theorems": [
    "Verif.Props.C02_pem_roundtrip",
    "Verif.Props.C02_pem_reject",
    "Verif.Props.C02_pem_accept"
   ],
   "note": "Law: importing an exported PEM gives the key back (PemLaw)."
  },
  {
   "property": "C03",
   "status": "proved",
   "theorems": [
    "Verif.Props.C03_keysecure_restore"
   ],
   "note": "Laws: PemLaw and AEAD decrypts what it encrypted."
  },
  {
   "property": "C04",
   "status": "proved",
   "theorems": [
    "Verif.Props.C04_keysecure_accept_iff",
    "Verif.Props.C04_keysecure_errors",
    "Verif.Props.C04_did_keysecure",
    "Verif.Props.C04_wrong_password"
   ],
   "note": "Acceptance as an iff, every other outcome as error class; no law used."
  },
  {
   "property": "C05",
   "status": "proved",
   "theorems": [
    "Verif.Props.C05_did_identifies_key",
    "Verif.Props.C05_distinct_keys"
   ],
   "note": "Reduction: equal DIDs give equal keys or a named SHA-384 / BLAKE3 collision."
  },
  {
   "property": "C06",
   "status": "proved",
   "theorems": [
    "Verif.Props.C06_identity_account"
   ],
   "note": "Iff over all strings; no law used."
  },
  {
   "property": "C07",
   "status": "proved",
   "theorems": [
    "Verif.Props.C07_uri_roundtrip",
    "Verif.Props.C07_builds"
   ],
   "note": "Exact iff; the round trip fails for values with ?, & or =."
  },
  {
   "property": "C08",
   "status": "proved",
   "theorems": [
    "Verif.Props.C08_parse_uri_total"
   ],
   "note": "The model has an explicit panic outcome; the theorem excludes it for every string."
  },
  {
   "property": "C09",
   "status": "proved",
   "theorems": [
    "Verif.Props.C09_parse_uri_params",
    "Verif.Props.C09_unknown_segment_ignored"
   ],
   "note": "Against an independent description of segments and of the last occurrence."
  },
  {
   "property": "C10",
   "status": "proved",
   "theorems": [
    "Verif.Props.C10_build_uri"
   ],
   "note": "Exact text for every Params and account."
  },
  {
   "property": "C11",
   "status": "proved",
   "theorems": [
    "Verif.Props.C11_first_call_wins",
    "Verif.Props.C11_later_calls_ignored"
   ],
   "note": "Induction over all call histories."
  },
  {
   "property": "C12",
   "status": "proved",
   "theorems": [
    "Verif.Props.C12_document"
   ],
   "note": "All reachable states."
  },
  {
   "property": "C13",
   "status": "proved",
   "theorems": [
    "Verif.Props.C13_published_keys"
   ],
   "note": "All reachable states."
  },
  {
   "property": "C14",
   "status": "proved",
   "theorems": [
    "Verif.Props.C14_private_keys",
    "Verif.Props.C14_error_class",
    "Verif.Props.C14_restores_account",
    "Verif.Props.C14_published"
   ],
   "note": "All reachable states, passwords and randomness; error class too."
  },
  {
   "property": "C15",
   "status": "proved",
   "theorems": [
    "Verif.Props.C15_eddsa",
    "Verif.Props.C15_ecdh",
    "Verif.Props.C15_errors",
    "Verif.Props.C15_base_irrelevant"
   ],
   "note": "Both directions for both key types; other bases through mbOther."
  },
  {
   "property": "C16",
   "status": "proved",
   "theorems": [
    "Verif.Props.C16_builder_history",
    "Verif.Props.C16_absent_iff",
    "Verif.Props.C16_commute"
   ],
   "note": "All histories."
  },
  {
   "property": "C17",
   "status": "proved",
   "theorems": [
    "Verif.Props.C17_validate_iff",
    "Verif.Props.C17_validate_errors",
    "Verif.Props.C17_built_docs_validate",
    "Verif.Props.C17_identity_docs_validate"
   ],
   "note": "Iff, with the error of each failing check."
  },
  {
   "property": "C18",
   "status": "proved",
   "theorems": [
    "Verif.Props.C18_json_roundtrip",
    "Verif.Props.C18_text_injective"
   ],
   "note": "Byte level reader after printer."
  },
  {
   "property": "C19",
   "status": "partial",
   "theorems": [
    "Verif.Props.C19_is_valid_partial",
    "Verif.Props.C19_is_valid_counterexample",
    "Verif.Props.C19_blind",
    "Verif.Props.C19_generated",
    "Verif.Props.C19_checked"
   ],
   "note": "False of the code: is_valid uses || where both texts are required (keys/verification.rs, keys/agreement.rs). Counterexample proved; the partial theorem is the exact condition that is checked. C19_blind: the answer does not depend on the public key text at all. The full claim holds of generated pairs (C19_generated) and of pairs whose public key also decodes (C19_checked)."
  },
  {
   "property": "C20",
   "status": "proved",
   "theorems": [
    "Verif.Props.C20_roundtrip"
   ],
   "note": "Law: digest lengths."
  },
  {
   "property": "C21",
   "status": "proved",
   "theorems": [
    "Verif.Props.C21_exact"
   ],
   "note": "Acceptance as an iff over all strings, error classes included."
  },
  {
   "property": "C22",
   "status": "proved",
   "theorems": [
    "Verif.Props.C22_integrity"
   ],
   "note": "Reduction to a named BLAKE3 collision."
  },
  {
   "property": "C23",
   "status": "proved",
   "theorems": [
    "Verif.Props.C23_shape"
   ],
   "note": "Length and alphabet of every produced text."
  },
  {
   "property": "C24",
   "status": "proved",
   "theorems": [
    "Verif.Props.C24_validate",
    "Verif.Props.C24_serialise_iff"
   ],
   "note": "Iff; order of the checks included."
  },
  {
   "property": "C25",
   "status": "proved",
   "theorems": [
    "Verif.Props.C25_validate",
    "Verif.Props.C25_serialise_iff",
    "Verif.Props.C25_embedded_not_validated"
   ],
   "note": "Iff; embedded credentials are shown not to be validated."
  },
  {
   "property": "C26",
   "status": "proved",
   "theorems": [
    "Verif.Props.C26_json_roundtrip",
    "Verif.Props.C26_reread",
    "Verif.Props.C26_exact",
    "Verif.Props.C26_unreadable",
    "Verif.Props.C26_too_deep"
   ],
   "note": "Exact: the round trip holds iff each float of the document survives print and parse (C26_exact); what is read otherwise (C26_reread, C26_unreadable), and nesting beyond 126 fails."
  },
  {
   "property": "C27",
   "status": "proved",
   "theorems": [
    "Verif.Props.C27_json_roundtrip",
    "Verif.Props.C27_exact",
    "Verif.Props.C27_too_deep"
   ],
   "note": "Exact in the floats of the embedded subjects; includes the negative half on nesting."
  },
  {
   "property": "C28",
   "status": "proved",
   "theorems": [
    "Verif.Props.C28_order_vc",
    "Verif.Props.C28_order_vp",
    "Verif.Props.C28_order_doc",
    "Verif.Props.C28_unknown_vc",
    "Verif.Props.C28_unknown_vp",
    "Verif.Props.C28_duplicate_vc",
    "Verif.Props.C28_duplicate_vp",
    "Verif.Props.C28_missing_vc",
    "Verif.Props.C28_missing_vp"
   ],
   "note": "On the tree level of the JSON text, any depth, for VC, VP and (order) Doc."
  },
  {
   "property": "C29",
   "status": "proved",
   "theorems": [
    "Verif.Props.C29_vc",
    "Verif.Props.C29_vp",
    "Verif.Props.C29_proof",
    "Verif.Props.C29_order_independent"
   ],
   "note": "Iff, for VC, VP and Proof; SameVC/SameVP compare numbers by canonical text."
  },
  {
   "property": "C30",
   "status": "proved",
   "theorems": [
    "Verif.Props.C30_vc_history",
    "Verif.Props.C30_vp_history",
    "Verif.Props.C30_vc_proof_slot",
    "Verif.Props.C30_vp_proof_slot"
   ],
   "note": "All histories."
  },
  {
   "property": "C31",
   "status": "proved",
   "theorems": [
    "Verif.Props.C31_vc",
    "Verif.Props.C31_vp"
   ],
   "note": "For every key, document and options; laws: signatures verify, float text, JCS. Transport part under Survives for the floats of the document."
  },
  {
   "property": "C32",
   "status": "proved",
   "theorems": [
    "Verif.Props.C32_vc",
    "Verif.Props.C32_vp"
   ],
   "note": "Iff plus error class."
  },
  {
   "property": "C33",
   "status": "proved",
   "theorems": [
    "Verif.Props.C33_vc",
    "Verif.Props.C33_vp"
   ],
   "note": "Iff."
  },
  {
   "property": "C34",
   "status": "proved",
   "theorems": [
    "Verif.Props.C34_vc",
    "Verif.Props.C34_vp"
   ],
   "note": "Every acceptance and rejection as an iff on the result."
  },
  {
   "property": "C35",
   "status": "proved",
   "theorems": [
    "Verif.Props.C35_vc",
    "Verif.Props.C35_vp"
   ],
   "note": "Reduction: same document and options, or Broken (named SHA-256 collision, or this very signature accepted for a named second message)."
  },
  {
   "property": "C36",
   "status": "proved",
   "theorems": [
    "Verif.Props.C36_verify",
    "Verif.Props.C36_sign",
    "Verif.Props.C36_unknown_not_signed"
   ],
   "note": "For every cryptosuite, not only eddsa-jcs-2022."
  },
  {
   "property": "C37",
   "status": "partial",
   "theorems": [
    "Verif.Props.C37_vc_partial",
    "Verif.Props.C37_vp_partial",
    "Verif.Props.C37_stale_vc",
    "Verif.Props.C37_stale_vp",
    "Verif.Props.C37_full_false"
   ],
   "note": "False of the code: create_proof signs the options with a stale proof value and the document with an existing proof, verify_proof blanks both. Proved: holds for clean inputs (_partial); fails (up to Broken) for all others; full claim refuted. Missing: nothing more can hold."
  },
  {
   "property": "C38",
   "status": "partial",
   "theorems": [
    "Verif.Props.C38_respelled_vc",
    "Verif.Props.C38_respelled_vp",
    "Verif.Props.C38_full_false",
    "Verif.Props.C38_vc_partial",
    "Verif.Props.C38_vp_partial"
   ],
   "note": "False of the code: the multibase base is ignored. Every signed document is also accepted with the base16 spelling. Partial: what is known of the text."
  },
  {
   "property": "C39",
   "status": "partial",
   "theorems": [
    "Verif.Props.C39_any_expiry",
    "Verif.Props.C39_full_false",
    "Verif.Props.C39_vc_partial",
    "Verif.Props.C39_vp_partial"
   ],
   "note": "False of the code: expires is never read. Any text is accepted; full claim refuted for every clock. Partial: expires is covered by the signature."
  },
  {
   "property": "C40",
   "status": "partial",
   "theorems": [
    "Verif.Props.C40_any_credentials",
    "Verif.Props.C40_full_false",
    "Verif.Props.C40_bad_proof",
    "Verif.Props.C40_partial"
   ],
   "note": "False of the code: embedded credentials are not looked at. Any non-empty list is accepted; full claim refuted twice. Partial: they are covered by the signature and there is at least one."
  },
  {
   "property": "C41",
   "status": "partial",
   "theorems": [
    "Verif.Props.C41_any_key",
    "Verif.Props.C41_full_false",
    "Verif.Props.C41_vc_partial",
    "Verif.Props.C41_vp_partial"
   ],
   "note": "False of the code: verification method, issuer and holder are not linked to the key. Full claim refuted for every resolver. Partial: they are covered by the signature."
  },
  {
   "property": "C42",
   "status": "proved",
   "theorems": [
    "Verif.Props.C42_display",
    "Verif.Props.C42_of_string",
    "Verif.Props.C42_json"
   ],
   "note": "All strings."
  },
  {
   "property": "C43",
   "status": "proved",
   "theorems": [
    "Verif.Props.C43_history",
    "Verif.Props.C43_initial",
    "Verif.Props.C43_commute",
    "Verif.Props.C43_remove_proof_value"
   ],
   "note": "All histories."
  },
  {
   "property": "C44",
   "status": "proved",
   "theorems": [
    "Verif.Props.C44_vc",
    "Verif.Props.C44_vp"
   ],
   "note": "Iff for each class."
  },
  {
   "property": "C45",
   "status": "proved",
   "theorems": [
    "Verif.Props.C45_to_bytes",
    "Verif.Props.C45_try_from"
   ],
   "note": "Both directions."
  },
  {
   "property": "C46",
   "status": "proved",
   "theorems": [
    "Verif.Props.C46_json_roundtrip",
    "Verif.Props.C46_default",
    "Verif.Props.C46_text"
   ],
   "note": "Byte level reader after printer."
  },
  {
   "property": "C47",
   "status": "proved",
   "theorems": [
    "Verif.Props.C47_layout",
    "Verif.Props.C47_separated",
    "Verif.Props.C47_hashers"
   ],
   "note": "Laws: digest lengths."
  },
  {
   "property": "C48",
   "status": "proved",
   "theorems": [
    "Verif.Props.C48_parse_multiaddr"
   ],
   "note": "Iff and error class."
  },
  {
   "property": "C49",
   "status": "proved",
   "theorems": [
    "Verif.Props.C49_doc_text",
    "Verif.Props.C49_vc_text",
    "Verif.Props.C49_vp_text",
    "Verif.Props.C49_vc_canonical",
    "Verif.Props.C49_vp_canonical",
    "Verif.Props.C49_proof_canonical"
   ],
   "note": "Text compared with an independent printer of literal member lists."
  },
  {
   "property": "C50",
   "status": "proved",
   "theorems": [
    "Verif.Props.C50_not_json",
    "Verif.Props.C50_unambiguous",
    "Verif.Props.C50_white_space"
   ],
   "note": "Grammar written as inductive relations on bytes (Spec/Grammar.lean), equivalent to the reader."
  },
  {
   "property": "C51",
   "status": "proved",
   "theorems": [
    "Verif.Props.C51_reads_vc",
    "Verif.Props.C51_reads_vp",
    "Verif.Props.C51_reads_doc",
    "Verif.Props.C51_reads_proof",
    "Verif.Props.C51_reads_connection",
    "Verif.Props.C51_unique_vc",
    "Verif.Props.C51_unique_vp"
   ],
   "note": "Iff against relations on the text (Spec/Reads.lean) that do not mention the reader. f64 parsing is a parameter."
  },
  {
   "property": "C52",
   "status": "proved",
   "theorems": [
    "Verif.Props.C52_texts",
    "Verif.Props.C52_readers",
    "Verif.Props.C52_vc_as_vp",
    "Verif.Props.C52_vp_as_vc",
    "Verif.Props.C52_both"
   ],
   "note": "Reduction: no cryptographic strength assumed; the collision or second message is explicit."
  },
  {
   "property": "C53",
   "status": "proved",
   "theorems": [
    "Verif.Props.C53_vc",
    "Verif.Props.C53_vp",
    "Verif.Props.C53_same_verdict_vc",
    "Verif.Props.C53_same_verdict_vp",
    "Verif.Props.C53_sent_vc",
    "Verif.Props.C53_sent_vp"
   ],
   "note": "Iff on the numbers of the document (Rereads); laws: JCS order and number tokens, signatures verify."
  },
  {
   "property": "C54",
   "status": "proved",
   "theorems": [
    "Verif.Props.C54_text",
    "Verif.Props.C54_json_roundtrip",
    "Verif.Props.C54_reads",
    "Verif.Props.C54_stored"
   ],
   "note": "JSON of KeySecure belongs to prople-crypto and is a parameter; that its records are read back is a hypothesis on the exported records."
  },
  {
   "property": "C55",
   "status": "proved",
   "theorems": [
    "Verif.Props.C55_chain"
   ],
   "note": "All laws except hash lengths; KeySecure JSON as in C54; float and nesting conditions as in C26, C27."
  },
  {
   "property": "C56",
   "status": "proved",
   "theorems": [
    "Verif.Props.C56_uri",
    "Verif.Props.C56_document"
   ],
   "note": "Iff on the hash; reduction to an explicit collision for documents."
  },
  {
   "property": "C57",
   "status": "proved",
   "theorems": [
    "Verif.Props.C57_vc",
    "Verif.Props.C57_vp"
   ],
   "note": "Reduction, no signer assumed."
  },
  {
   "property": "C58",
   "status": "proved",
   "theorems": [
    "Verif.Props.C58_vc",
    "Verif.Props.C58_vp"
   ],
   "note": "Iff, from bytes; f64 parsing, dates and Ed25519 are parameters."
  },
  {
   "property": "C59",
   "status": "proved",
   "theorems": [
    "Verif.Props.C59_only_parsed",
    "Verif.Props.C59_alike",
    "Verif.Props.C59_vc",
    "Verif.Props.C59_vp",
    "Verif.Props.C59_canonical_vc",
    "Verif.Props.C59_canonical_vp",
    "Verif.Props.C59_doc"
   ],
   "note": "First part for any cryptosuite; float condition as in C26."
  },
  {
   "property": "C60",
   "status": "proved",
   "theorems": [
    "Verif.Props.C60_embedded",
    "Verif.Props.C60_extract",
    "Verif.Props.C60_too_deep"
   ],
   "note": "Bound 124 shown sharp."
  },
  {
   "property": "C61",
   "status": "partial",
   "theorems": [
    "Verif.Props.C61_ignored_vc",
    "Verif.Props.C61_ignored_vp",
    "Verif.Props.C61_add_anything",
    "Verif.Props.C61_full_false",
    "Verif.Props.C61_vc_partial",
    "Verif.Props.C61_vp_partial",
    "Verif.Props.C61_vc_proof_partial",
    "Verif.Props.C61_vp_proof_partial"
   ],
   "note": "False of the code for members the structs do not know: C61_full_false, C61_add_anything, C61_ignored_*. The partial theorems cover all known members of the document and of its proof except the proof value (C38), as a reduction."
  },
  {
   "property": "C62",
   "status": "proved",
   "theorems": [
    "Verif.Props.C62_document",
    "Verif.Props.C62_text",
    "Verif.Props.C62_export",
    "Verif.Props.C62_signing_vc",
    "Verif.Props.C62_signing_vp"
   ],
   "note": "Iffs over pairs of histories; strength of the cipher is not claimed."
  },
  {
   "property": "C63",
   "status": "proved",
   "theorems": [
    "Verif.Props.C63_laws",
    "Verif.Props.C63_bytes",
    "Verif.Props.C63_value_order",
    "Verif.Props.C63_agree",
    "Verif.Props.C63_disagree",
    "Verif.Props.C63_sign_vc",
    "Verif.Props.C63_verify_vc",
    "Verif.Props.C63_sign_vp",
    "Verif.Props.C63_verify_vp",
    "Verif.Props.C63_bytes_differ"
   ],
   "note": "Orders defined in Spec/Order.lean; which of them serde_jcs uses stays a parameter of the model."
  },
  {
   "property": "C64",
   "status": "proved",
   "theorems": [
    "Verif.Props.C64_vc",
    "Verif.Props.C64_vp",
    "Verif.Props.C64_honest_vc",
    "Verif.Props.C64_honest_vp"
   ],
   "note": "Reduction; the honest corollaries state unforgeability and absence of collisions for the given history only."
  },
  {
   "property": "C65",
   "status": "proved",
   "theorems": [
    "Verif.Props.C65_did_error",
    "Verif.Props.C65_account_error",
    "Verif.Props.C65_proof_error",
    "Verif.Props.C65_keysecure_error",
    "Verif.Props.C65_from_keysecure"
   ],
   "note": "Display texts as derived by thiserror."
  },
  {
   "property": "C66",
   "status": "proved",
   "theorems": [
    "Verif.Props.C66_text",
    "Verif.Props.C66_reads",
    "Verif.Props.C66_json_roundtrip",
    "Verif.Props.C66_stored_uri"
   ],
   "note": "serde derive of Params; nothing in the repository calls it."
  },
  {
   "property": "C67",
   "status": "proved",
   "theorems": [
    "Verif.Props.C67_verification_decode",
    "Verif.Props.C67_agreement_decode",
    "Verif.Props.C67_generated",
    "Verif.Props.C67_decrypt",
    "Verif.Props.C67_account",
    "Verif.Props.C67_verification_build",
    "Verif.Props.C67_agreement_build",
    "Verif.Props.C67_record"
   ],
   "note": "Laws only where decoding inverts encoding; to_keysecure and decrypt are contracts of prople-crypto."
  },
  {
   "property": "C68",
   "status": "proved",
   "theorems": [
    "Verif.Props.C68_sign_vc",
    "Verif.Props.C68_sign_vp",
    "Verif.Props.C68_verify_vc",
    "Verif.Props.C68_verify_vp"
   ],
   "note": "Texts coming from libraries (date, signature, serde, multibase) are parameters."
  },
  {
   "property": "C69",
   "status": "proved",
   "theorems": [
    "Verif.Props.C69_resolve",
    "Verif.Props.C69_vc",
    "Verif.Props.C69_vp",
    "Verif.Props.C69_keys_stay",
    "Verif.Props.C69_honest_vc",
    "Verif.Props.C69_honest_vp"
   ],
   "note": "Reduction; the honest corollaries state absence of forgery and collision for the trace and check at hand only."
  },
  {
   "property": "C70",
   "status": "proved",
   "theorems": [
    "Verif.Props.C70_docs",
    "Verif.Props.C70_add",
    "Verif.Props.C70_verify",
    "Verif.Props.C70_sign_verify",
    "Verif.Props.C70_resign",
    "Verif.Props.C70_one_signature"
   ],
   "note": "Suite and document type are universally quantified; DocLaws is shown of VC, VP and a third type."
  },
  {
   "property": "C71",
   "status": "proved",
   "theorems": [
    "Verif.Props.C71_create_vc",
    "Verif.Props.C71_create_vp",
    "Verif.Props.C71_verify_vc",
    "Verif.Props.C71_verify_vp",
    "Verif.Props.C71_roundtrip_vc",
    "Verif.Props.C71_roundtrip_vp"
   ],
   "note": "Iffs in both directions, including all errors."
  },
  {
   "property": "C72",
   "status": "proved",
   "theorems": [
    "Verif.Props.C72_open",
    "Verif.Props.C72_restore",
    "Verif.Props.C72_restore_did",
    "Verif.Props.C72_decrypt",
    "Verif.Props.C72_hashlink",
    "Verif.Props.C72_hashlink_make",
    "Verif.Props.C72_json_bytes"
   ],
   "note": "Iffs; texts produced by dependencies are a function of the failing input, left open."
  },
  {
   "property": "C73",
   "status": "partial",
   "theorems": [
    "Verif.Props.C73_config",
    "Verif.Props.C73_sent_vc",
    "Verif.Props.C73_sent_vp",
    "Verif.Props.C73_received_vc",
    "Verif.Props.C73_received_vp",
    "Verif.Props.C73_vc_partial",
    "Verif.Props.C73_vp_partial",
    "Verif.Props.C73_full_false"
   ],
   "note": "False of the code: the configuration is hashed with an empty proofValue. Full claim refuted; proved for every document: not accepted by the Recommendation unless Broken, and conversely. The partial theorems say what agrees."
  },
  {
   "property": "C74",
   "status": "proved",
   "theorems": [
    "Verif.Props.C74_did",
    "Verif.Props.C74_keys",
    "Verif.Props.C74_signature_vc",
    "Verif.Props.C74_signature_vp",
    "Verif.Props.C74_hashlink",
    "Verif.Props.C74_uri"
   ],
   "note": "Lengths of keys and signatures under the hypothesis that the serialised key has 32 and the signature 64 bytes; both key lengths occur."
  },
  {
   "property": "C75",
   "status": "proved",
   "theorems": [
    "Verif.Props.C75_no_check",
    "Verif.Props.C75_impersonation",
    "Verif.Props.C75_link"
   ],
   "note": "Holds for every predicate as check; C75_impersonation shows the consequence end to end, C75_link what the hashlink adds."
  },
  {
   "property": "C76",
   "status": "proved",
   "theorems": [
    "Verif.Props.C76_sound",
    "Verif.Props.C76_complete",
    "Verif.Props.C76_errors",
    "Verif.Props.C76_variants"
   ],
   "note": "Serialising by serde_json and serde_jcs is modelled as total, so variants wrapping its errors are unused under that assumption; GenerateHashLinkError needs the digest length."
  },
  {
   "property": "C77",
   "status": "proved",
   "theorems": [
    "Verif.Props.C77_vc",
    "Verif.Props.C77_vp",
    "Verif.Props.C77_doc",
    "Verif.Props.C77_w3c_vc",
    "Verif.Props.C77_w3c_vp",
    "Verif.Props.C77_w3c_doc",
    "Verif.Props.C77_skipped_doc"
   ],
   "note": "Iffs for all three readers; every reason is stated on the token tree."
  },
  {
   "property": "C78",
   "status": "proved",
   "theorems": [
    "Verif.Props.C78_laws",
    "Verif.Props.C78_cipher",
    "Verif.Props.C78_did",
    "Verif.Props.C78_hashlink",
    "Verif.Props.C78_restore",
    "Verif.Props.C78_export",
    "Verif.Props.C78_one_cipher_text"
   ],
   "note": "The algorithms are checked against published test vectors (quoted from memory, no network; the SHA-2 ones compared with Python's hashlib) by evaluation in the kernel. Ed25519 follows in C79; X25519, PEM, Argon2 stay assumptions."
  },
  {
   "property": "C79",
   "status": "proved",
   "theorems": [
    "Verif.Props.C79_laws",
    "Verif.Props.C79_sizes",
    "Verif.Props.C79_equation",
    "Verif.Props.C79_roundtrip_vc",
    "Verif.Props.C79_roundtrip_vp",
    "Verif.Props.C79_tamper_vc",
    "Verif.Props.C79_tamper_vp",
    "Verif.Props.C79_second_half",
    "Verif.Props.C79_neutral_key"
   ],
   "note": "Ed25519Keys says that keys, signing and verification under keys of key pairs are those of RFC 8032 and how public keys arise; the neutral-key theorem additionally assumes RFC 8032 verification for public keys that belong to no key pair (a strict verifier would refuse this key; the source of the crate is not available here). Test vectors of RFC 8032 quoted from memory and reproduced by a Python transcription of the reference program; evaluated in the kernel. Primality by Pratt certificates, group law proved for all complete curves with a = -1."
  },
  {
   "property": "C80",
   "status": "proved",
   "theorems": [
    "Verif.Props.C80_laws",
    "Verif.Props.C80_text",
    "Verif.Props.C80_shortest",
    "Verif.Props.C80_distinct",
    "Verif.Props.C80_read",
    "Verif.Props.C80_everyday",
    "Verif.Props.C80_documents",
    "Verif.Props.C80_sent_vc",
    "Verif.Props.C80_sent_vp",
    "Verif.Props.C80_not_all",
    "Verif.Props.C80_relay_vc",
    "Verif.Props.C80_relay_vp",
    "Verif.Props.C80_same"
   ],
   "note": "The programs for printing and reading are written from memory of the crates (ryu 1, ryu-js 0.2, serde_json 1 with default features) and compared with Python's repr on samples; `Spec.Doubles` says that the environment uses them. Rounding, shortest digits and the meaning of texts are specified over the rationals from IEEE 754 and RFC 8259, independently of the programs."
  },
  {
   "property": "C81",
   "status": "proved",
   "theorems": [
    "Verif.Props.C81_laws",
    "Verif.Props.C81_all",
    "Verif.Props.C81_write",
    "Verif.Props.C81_read",
    "Verif.Props.C81_did",
    "Verif.Props.C81_distinct",
    "Verif.Props.C81_record",
    "Verif.Props.C81_agreement_record",
    "Verif.Props.C81_keys",
    "Verif.Props.C81_stored",
    "Verif.Props.C81_chain",
    "Verif.Props.C81_exports"
   ],
   "note": "`Spec.Pkcs8Keys` and `Spec.X25519Keys` say that the environment writes and reads PEM texts by RFC 7468, RFC 4648, RFC 5958 and RFC 8410, and makes agreement keys by RFC 7748. The specification of base64 is by value, the one of DER by nested elements, both independent of the programs. Reading of texts in other than the strict form is not specified."
  },
  {
   "property": "C82",
   "status": "proved",
   "theorems": [
    "Verif.Props.C82_decode",
    "Verif.Props.C82_refused",
    "Verif.Props.C82_one",
    "Verif.Props.C82_count",
    "Verif.Props.C82_letters",
    "Verif.Props.C82_sixty_four",
    "Verif.Props.C82_vc",
    "Verif.Props.C82_vp",
    "Verif.Props.C82_key",
    "Verif.Props.C82_document",
    "Verif.Props.C82_hashlink"
   ],
   "note": "`Spec.CrateBases` says that the bases left open in the environment are those of the crate; which take letters of either case stays open (`Env.mbFold`) and the lower bounds hold either way. Texts are specified by bits and numbers, independent of the decoders."
  },
  {
   "property": "C83",
   "status": "proved",
   "theorems": [
    "Verif.Props.C83_dates",
    "Verif.Props.C83_options",
    "Verif.Props.C83_refused",
    "Verif.Props.C83_rfc3339",
    "Verif.Props.C83_stamp",
    "Verif.Props.C83_signed",
    "Verif.Props.C83_now",
    "Verif.Props.C83_interop"
   ],
   "note": "`Spec.ChronoDates` says that the reader accepts what that of chrono 0.4.31 or later accepts, except for texts with a sign and one of the years 262142 to 262144, where the range of dates ends, depending on the version. The grammar is specified separately from the program; `C83_stamp` is an equivalence, the other direction of `C83_rfc3339` is false and not claimed."
  },
  {
   "property": "C84",
   "status": "proved",
   "theorems": [
    "Verif.Props.C84_unique",
    "Verif.Props.C84_addresses",
    "Verif.Props.C84_append",
    "Verif.Props.C84_refused",
    "Verif.Props.C84_spellings",
    "Verif.Props.C84_uri",
    "Verif.Props.C84_injected"
   ],
   "note": "`Spec.CrateAddrs` says that the reader accepts what that of multiaddr 0.18 accepts (from memory). Open are the empty text and refused texts that contain the name of a protocol that is not modelled (those with keys, hashes or escapes: ipfs, onion, onion3, garlic, unix, certhash, http-path, x-parity-ws and the like)."
  },
  {
   "property": "C85",
   "status": "proved",
   "theorems": [
    "Verif.Props.C85_public",
    "Verif.Props.C85_restored",
    "Verif.Props.C85_agree",
    "Verif.Props.C85_same",
    "Verif.Props.C85_scalars"
   ],
   "note": "Needs that the keys are those of RFC 7748 (`Spec.X25519Keys`) and `AeadLaw`. The group is that of Mathlib; that the Montgomery ladder multiplies in it is proved, with the order of the base point."
  },
  {
   "property": "C86",
   "status": "proved",
   "theorems": [
    "Verif.Props.C86_vc",
    "Verif.Props.C86_vp",
    "Verif.Props.C86_number",
    "Verif.Props.C86_canonical_vc",
    "Verif.Props.C86_canonical_vp",
    "Verif.Props.C86_equal",
    "Verif.Props.C86_signed_vc",
    "Verif.Props.C86_signed_vp",
    "Verif.Props.C86_sent_vc",
    "Verif.Props.C86_sent_vp"
   ],
   "note": "`f64` equality is a parameter, required to compare values (`Ieee`, IEEE 754 for the finite doubles that JSON has); numbers are those of `Spec.Doubles`, member names are ordered by UTF-16 units. Objects of serde_json are maps ordered by member name (`BTreeMap`, no feature of the crate changes that here)."
  },
  {
   "property": "C87",
   "status": "proved",
   "theorems": [
    "Verif.Props.C87_did",
    "Verif.Props.C87_url",
    "Verif.Props.C87_entries",
    "Verif.Props.C87_escape",
    "Verif.Props.C87_fragment",
    "Verif.Props.C87_component"
   ],
   "note": "C87_url and C87_component are iffs; C87_fragment records that fragments are not understood (finding)."
  },
  {
   "property": "C88",
   "status": "proved",
   "theorems": [
    "Verif.Props.C88_refused",
    "Verif.Props.C88_raw",
    "Verif.Props.C88_written"
   ],
   "note": "A finding, proved for all keys; C88_raw needs that readers of keys accept 32 bytes only (shown of the world standard)."
  },
  {
   "property": "C89",
   "status": "proved",
   "theorems": [
    "Verif.Props.C89_number",
    "Verif.Props.C89_vc",
    "Verif.Props.C89_vp",
    "Verif.Props.C89_relays_vc",
    "Verif.Props.C89_relays_vp",
    "Verif.Props.C89_canonical_vc",
    "Verif.Props.C89_canonical_vp",
    "Verif.Props.C89_moves"
   ],
   "note": "C89_moves shows that the bounds are not vacuous and that relaying need not settle (finding)."
  },
  {
   "property": "C90",
   "status": "proved",
   "theorems": [
    "Verif.Props.C90_opens",
    "Verif.Props.C90_restore",
    "Verif.Props.C90_file",
    "Verif.Props.C90_size",
    "Verif.Props.C90_any_cost",
    "Verif.Props.C90_exports"
   ],
   "note": "Argon2Keys is a hypothesis on the dependency (its sources are not here). C90_any_cost is also a finding: the importer sets no least cost. The RFC 9106 test vector is checked by evaluation (#guard), not by the kernel."
  },
  {
   "property": "C91",
   "status": "proved",
   "theorems": [
    "Verif.Props.C91_vc",
    "Verif.Props.C91_vc_canonical",
    "Verif.Props.C91_vp",
    "Verif.Props.C91_vp_canonical",
    "Verif.Props.C91_doc",
    "Verif.Props.C91_did",
    "Verif.Props.C91_agreement",
    "Verif.Props.C91_signed",
    "Verif.Props.C91_signed_vp",
    "Verif.Props.C91_unchecked",
    "Verif.Props.C91_read",
    "Verif.Props.C91_read_vp",
    "Verif.Props.C91_refused"
   ],
   "note": "The data models are spelled out on token trees of RFC 8259 texts, for the properties the code writes. URI is the outer form of RFC 3986 (scheme, colon, characters of a URI); that contexts are a set without repetitions and the syntax of dates are left out (dates: C83). JSON-LD processing of contexts is not modelled."
  },
  {
   "property": "C92",
   "status": "proved",
   "theorems": [
    "Verif.Props.C92_laws",
    "Verif.Props.C92_texts_vc",
    "Verif.Props.C92_texts_vp",
    "Verif.Props.C92_read_vc",
    "Verif.Props.C92_read_vp",
    "Verif.Props.C92_sign_vc",
    "Verif.Props.C92_sign_vp",
    "Verif.Props.C92_verify_vc",
    "Verif.Props.C92_received_vc",
    "Verif.Props.C92_verify_vp",
    "Verif.Props.C92_received_vp",
    "Verif.Props.C92_did",
    "Verif.Props.C92_document",
    "Verif.Props.C92_hashlink",
    "Verif.Props.C92_address",
    "Verif.Props.C92_pem",
    "Verif.Props.C92_stored",
    "Verif.Props.C92_export",
    "Verif.Props.C92_key",
    "Verif.Props.C92_entry",
    "Verif.Props.C92_three",
    "Verif.Props.C92_open"
   ],
   "note": "A simulation between two environments: numbers of one build are carried to the other by their bits. The statements are about results; error texts of dependencies may differ, so two failing builds are only said to fail both. Verification is stated for public keys that come from a secret (C92_verify) and, for builds that verify as RFC 8032 says, for all that are points (C92_received), for proofs whose date is not at the ends of the range of dates, and for proof values in base58 or builds that fold case alike; C92_open shows two conforming builds that treat such dates, such texts and keys of small order differently."
  },
  {
   "property": "C93",
   "status": "proved",
   "theorems": [
    "Verif.Props.C93_points",
    "Verif.Props.C93_small",
    "Verif.Props.C93_read",
    "Verif.Props.C93_own",
    "Verif.Props.C93_second_half",
    "Verif.Props.C93_vc",
    "Verif.Props.C93_vp",
    "Verif.Props.C93_rest",
    "Verif.Props.C93_forged"
   ],
   "note": "The number of points of the curve is proved, not assumed: a point of order eight, the order of the base point, and the bound of two points for each second coordinate. Rfc8032Sound (used for the binding half) also holds of stricter verification; Rfc8032Verify (used for the eight keys) holds of verification by the plain equation and not of an implementation that refuses keys of small order. Encodings of points that RFC 8032 does not decode are not spoken of."
  },
  {
   "property": "C94",
   "status": "proved",
   "theorems": [
    "Verif.Props.C94_points",
    "Verif.Props.C94_read",
    "Verif.Props.C94_value",
    "Verif.Props.C94_zero",
    "Verif.Props.C94_shared",
    "Verif.Props.C94_restored",
    "Verif.Props.C94_own",
    "Verif.Props.C94_twins",
    "Verif.Props.C94_any",
    "Verif.Props.C94_alias"
   ],
   "note": "The code never computes a shared secret; this is what X25519 of RFC 7748 (Concrete/X25519.lean) gives to users of decoded keys. That 32 bytes are read as a key is X25519Keys.reads. The numbers of points of curve and twist are proved: a generator of each and the bound 2 p + 2 for both together."
  },
  {
   "property": "C95",
   "status": "proved",
   "theorems": [
    "Verif.Props.C95_halves",
    "Verif.Props.C95_repeats_vc",
    "Verif.Props.C95_repeats_vp",
    "Verif.Props.C95_repeats_kinds",
    "Verif.Props.C95_leak",
    "Verif.Props.C95_nonce",
    "Verif.Props.C95_signs_vc",
    "Verif.Props.C95_signs_vp",
    "Verif.Props.C95_broken",
    "Verif.Props.C95_two_keys",
    "Verif.Props.C95_received"
   ],
   "note": "For key pairs that are Ed25519 keys (Ed25519Keys); C95_received for any key under verification as in RFC 8032 (Rfc8032Verify). Not claimed: that a single proof value hides the scalar, or that collisions of SHA-512 modulo the group order are hard to find."
  },
  {
   "property": "C96",
   "status": "proved",
   "theorems": [
    "Verif.Props.C96_pad",
    "Verif.Props.C96_known",
    "Verif.Props.C96_account",
    "Verif.Props.C96_same",
    "Verif.Props.C96_digits",
    "Verif.Props.C96_repeats",
    "Verif.Props.C96_identity"
   ],
   "note": "For the cipher XChaCha20-Poly1305 (Actual) and, in C96_digits, keys and PEM texts of the standards. Salt and nonce are arguments of the model (ExportRandom): how the dependency draws them is outside it. Not claimed: that records with different salts or nonces say nothing."
  },
  {
   "property": "C97",
   "status": "proved",
   "theorems": [
    "Verif.Props.C97_changed",
    "Verif.Props.C97_numbers",
    "Verif.Props.C97_account",
    "Verif.Props.C97_agreement",
    "Verif.Props.C97_tag"
   ],
   "note": "For the cipher XChaCha20-Poly1305 (Actual). Counts numbers; that the number looks random to somebody without the password is not claimed. Only the cipher text is changed: costs, salt and nonce enter the key and stay."
  },
  {
   "property": "C98",
   "status": "proved",
   "theorems": [
    "Verif.Props.C98_iff",
    "Verif.Props.C98_library",
    "Verif.Props.C98_bytes",
    "Verif.Props.C98_accounts",
    "Verif.Props.C98_stored"
   ],
   "note": "For the cipher XChaCha20-Poly1305 (Actual); the key derivation is arbitrary. Existence is by counting (Cauchy-Davenport), no cipher text is computed. That streams of two passwords do not agree on 76 bytes is not claimed."
  },
  {
   "property": "C99",
   "status": "proved",
   "theorems": [
    "Verif.Props.C99_few",
    "Verif.Props.C99_iff",
    "Verif.Props.C99_small",
    "Verif.Props.C99_owner"
   ],
   "note": "For signatures as RFC 8032 defines them (Rfc8032Verify). That hash numbers do not coincide is never assumed; no case of C99_owner with two different keys is known to anybody, its example is the key itself."
  },
  {
   "property": "C100",
   "status": "proved",
   "theorems": [
    "Verif.Props.C100_library",
    "Verif.Props.C100_order",
    "Verif.Props.C100_gap",
    "Verif.Props.C100_binds",
    "Verif.Props.C100_strict",
    "Verif.Props.C100_signed",
    "Verif.Props.C100_split_vc",
    "Verif.Props.C100_split_vp"
   ],
   "note": "The library is compared through Rfc8032Verify or, under keys of key pairs, Ed25519Keys: the equation as it stands. Which of the three a given version of the dependency checks is not part of the repository."
  },
  {
   "property": "C101",
   "status": "proved",
   "theorems": [
    "Verif.Props.C101_vc",
    "Verif.Props.C101_vp",
    "Verif.Props.C101_claims_vc",
    "Verif.Props.C101_claims_vp",
    "Verif.Props.C101_bytes_vc",
    "Verif.Props.C101_bytes_vp",
    "Verif.Props.C101_signed_bytes_vc",
    "Verif.Props.C101_signed_bytes_vp",
    "Verif.Props.C101_member",
    "Verif.Props.C101_sign_vc",
    "Verif.Props.C101_sign_vp",
    "Verif.Props.C101_sign_iff",
    "Verif.Props.C101_honest_vc",
    "Verif.Props.C101_honest_vp"
   ],
   "note": "The careful reader and signer are not in the repository; they are callers written in Lean out of the modelled public functions. C19 and C73 are not covered: the first concerns a check on key pairs nothing else calls, the second cannot be mended from outside (C73_sent_vc)."
  },
  {
   "property": "C102",
   "status": "proved",
   "theorems": [
    "Verif.Props.C102_key",
    "Verif.Props.C102_vc",
    "Verif.Props.C102_vp",
    "Verif.Props.C102_honest_vc",
    "Verif.Props.C102_honest_vp",
    "Verif.Props.C102_impostor",
    "Verif.Props.C102_found",
    "Verif.Props.C102_complete_vc",
    "Verif.Props.C102_complete_vp"
   ],
   "note": "Endorsing and looking up keys are callers written in Lean around the modelled functions, like those of C101; the repository has no function from a public key to a DID, so the reader computes it as DID::identity does. Nothing is assumed about the strength of hashes and signatures: what could go wrong is listed (Cheated, Stolen)."
  },
  {
   "property": "C103",
   "status": "proved",
   "theorems": [
    "Verif.Props.C103_accepts_vc",
    "Verif.Props.C103_accepts_vp",
    "Verif.Props.C103_returns_vc",
    "Verif.Props.C103_returns_vp",
    "Verif.Props.C103_add_vc",
    "Verif.Props.C103_sent_vc",
    "Verif.Props.C103_one_vc",
    "Verif.Props.C103_received_vc",
    "Verif.Props.C103_text_vc",
    "Verif.Props.C103_apart_vc",
    "Verif.Props.C103_add_vp",
    "Verif.Props.C103_sent_vp",
    "Verif.Props.C103_one_vp",
    "Verif.Props.C103_received_vp",
    "Verif.Props.C103_text_vp",
    "Verif.Props.C103_apart_vp",
    "Verif.Props.C103_full"
   ],
   "note": "W3C.suite is a caller written in Lean, an implementation of the public trait CryptoSuiteBuilder; it is not part of /repo. The Recommendation is ConformsW3C and W3CVerifies (stated for C73). The check of created is a parameter of both. Only what the reader of the library reads can be accepted (C77)."
  },
  {
   "property": "C104",
   "status": "proved",
   "theorems": [
    "Verif.Props.C104_export_entry",
    "Verif.Props.C104_import_entry",
    "Verif.Props.C104_export",
    "Verif.Props.C104_import",
    "Verif.Props.C104_import_key",
    "Verif.Props.C104_there_and_back",
    "Verif.Props.C104_back_and_there",
    "Verif.Props.C104_written",
    "Verif.Props.C104_chain",
    "Verif.Props.C104_restore",
    "Verif.Props.C104_restore_signs",
    "Verif.Props.C104_restore_one",
    "Verif.Props.C104_restore_honest",
    "Verif.Props.C104_secret",
    "Verif.Props.C104_secret_same",
    "Verif.Props.C104_secret_honest",
    "Verif.Props.C104_agree"
   ],
   "note": "The functions of Verif.Keyring are callers written in Lean around the library; they are not part of /repo. KeySizes (32 bytes, keys read from bytes have these bytes) is proved of the environment of the standards (standard_sizes). The caller uses X25519 of RFC 7748, as the library has no agreement function."
  },
  {
   "property": "C105",
   "status": "proved",
   "theorems": [
    "Verif.Props.C105_ignored",
    "Verif.Props.C105_replay",
    "Verif.Props.C105_borrowed",
    "Verif.Props.C105_question",
    "Verif.Props.C105_read",
    "Verif.Props.C105_one",
    "Verif.Props.C105_honest",
    "Verif.Props.C105_step",
    "Verif.Props.C105_history",
    "Verif.Props.C105_once",
    "Verif.Props.C105_elsewhere",
    "Verif.Props.C105_agreement",
    "Verif.Props.C105_injective",
    "Verif.Props.C105_complete"
   ],
   "note": "question, answer, readAnswer and Desk are callers written in Lean around the library and the careful reader of C101; they are not part of /repo. That nobody signs for a question before it is asked is a hypothesis (asked, hf) of C105_agreement; it follows from unpredictable numbers, which are not modelled."
  },
  {
   "property": "C106",
   "status": "proved",
   "theorems": [
    "Verif.Props.C106_date",
    "Verif.Props.C106_dates",
    "Verif.Props.C106_key",
    "Verif.Props.C106_vc",
    "Verif.Props.C106_vp",
    "Verif.Props.C106_all_vc",
    "Verif.Props.C106_all_vp",
    "Verif.Props.C106_same_vc",
    "Verif.Props.C106_same_vp",
    "Verif.Props.C106_wider",
    "Verif.Props.C106_issue_vc",
    "Verif.Props.C106_issue_vp",
    "Verif.Props.C106_issued_vc",
    "Verif.Props.C106_issued_vp"
   ],
   "note": "The reader and issuer (namespace Verif.Portable) are callers written in Lean around the library; they are not part of /repo. A build is an Env with Conforms (C92) whose signature check lies between the strict one and RFC 8032 (Between); dependencies outside that range are not covered."
  },
  {
   "property": "C107",
   "status": "proved",
   "theorems": [
    "Verif.Props.C107_raw_vc",
    "Verif.Props.C107_raw_vp",
    "Verif.Props.C107_frame",
    "Verif.Props.C107_apart",
    "Verif.Props.C107_checks",
    "Verif.Props.C107_stamp",
    "Verif.Props.C107_vc",
    "Verif.Props.C107_vp",
    "Verif.Props.C107_trace_vc",
    "Verif.Props.C107_trace_answer",
    "Verif.Props.C107_trace_vp",
    "Verif.Props.C107_checks_did",
    "Verif.Props.C107_trace_stamp"
   ],
   "note": "frame, stamp, check and checkFrom (namespace Verif.Labels) are callers written in Lean; they are not part of /repo. That all parties sign bytes only so is the hypothesis Orderly of the trace theorems."
  },
  {
   "property": "C108",
   "status": "proved",
   "theorems": [
    "Verif.Props.C108_uri",
    "Verif.Props.C108_credential",
    "Verif.Props.C108_presentation",
    "Verif.Props.C108_names",
    "Verif.Props.C108_read_vc",
    "Verif.Props.C108_read_vp",
    "Verif.Props.C108_sign_vc",
    "Verif.Props.C108_sign_vp",
    "Verif.Props.C108_written",
    "Verif.Props.C108_honest_vc",
    "Verif.Props.C108_honest_vp",
    "Verif.Props.C108_order_read",
    "Verif.Props.C108_order_sign"
   ],
   "note": "uri, credential, presentation, ordered, signVC, signVP, readVC and readVP (namespace Verif.Modelled) are callers written in Lean; they are not part of /repo. The data model is the part of C91: dates, schemas and terms of contexts are outside."
  },
  {
   "property": "C109",
   "status": "proved",
   "theorems": [
    "Verif.Props.C109_library",
    "Verif.Props.C109_read",
    "Verif.Props.C109_make",
    "Verif.Props.C109_roundtrip",
    "Verif.Props.C109_unique",
    "Verif.Props.C109_url",
    "Verif.Props.C109_chars",
    "Verif.Props.C109_refused",
    "Verif.Props.C109_address",
    "Verif.Props.C109_trust"
   ],
   "note": "pct, unpct, didOk, make and read (namespace Verif.Links) are callers written in Lean; they are not part of /repo."
  },
  {
   "property": "C110",
   "status": "proved",
   "theorems": [
    "Verif.Props.C110_clash",
    "Verif.Props.C110_put",
    "Verif.Props.C110_all",
    "Verif.Props.C110_save",
    "Verif.Props.C110_refused",
    "Verif.Props.C110_never",
    "Verif.Props.C110_keeps",
    "Verif.Props.C110_streams",
    "Verif.Props.C110_fresh"
   ],
   "note": "clash, put, putAll, recordsOf, save, step and run (namespace Verif.Vault) are a caller written in Lean; they are not part of /repo. The vault has no removal: a record that was shown once still counts."
  },
  {
   "property": "C111",
   "status": "proved",
   "theorems": [
    "Verif.Props.C111_below",
    "Verif.Props.C111_vc",
    "Verif.Props.C111_vp",
    "Verif.Props.C111_inside",
    "Verif.Props.C111_wider",
    "Verif.Props.C111_same",
    "Verif.Props.C111_order",
    "Verif.Props.C111_issue_vc",
    "Verif.Props.C111_issue_vp",
    "Verif.Props.C111_issued"
   ],
   "note": "readVC, readVP, issueVC and issueVP (namespace Verif.Whole) are callers written in Lean; they are not part of /repo."
  },
  {
   "property": "C112",
   "status": "proved",
   "theorems": [
    "Verif.Props.C112_uri",
    "Verif.Props.C112_read",
    "Verif.Props.C112_below",
    "Verif.Props.C112_answer",
    "Verif.Props.C112_wider",
    "Verif.Props.C112_same",
    "Verif.Props.C112_one",
    "Verif.Props.C112_sent"
   ],
   "note": "answers, readAnswer and answer (namespace Verif.Whole) are callers written in Lean; they are not part of /repo."
  }
 ]
}