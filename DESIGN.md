# Formal model of prople/did in Lean 4

Status: design written before the proofs; the per-property table is kept current with the proofs
(see also MANIFEST.json for exact theorem names).

## 1. Shape of the model

| Lean module | models |
|---|---|
| `Verif/Base.lean` | Rust `String` as `Str = List Char`, byte vectors as `List UInt8`, UTF-8 encode/decode, `str::split`, errors (`core/src/types.rs`) |
| `Verif/Codec/*.lean` | hex, base58btc / `multibase::{encode,decode}`, `Multihash::wrap().to_bytes()` |
| `Verif/Json/*.lean` | JSON trees, the serde_json compact printer, a byte level JSON reader, serde's derive rules (missing / duplicate / unknown members, recursion limit 128, sequence form of structs), `serde_json::Value` as ordered map, the JCS printer |
| `Verif/Env.lean` | the third-party primitives the code calls, as a parameter `E : Env`, and the *laws* assumed of them, each a separate named `Prop` that is a hypothesis of the theorems needing it |
| `Verif/Model/*.lean` | the repository code, function by function: types, hashlink, account, did, query, identity, doc, keys, vc, vp, proof (mod, types, config, transform, hash, serialize, verifier, eddsa, integrity), context; the derived comparison of documents (`Equality`) |
| `Verif/Spec/*.lean` | small independent specifications used in theorem statements |
| `Verif/Props/*.lean` | the property theorems, one section per property id |
| `Verif/Props/RepoTests.lean` | the 76 unit tests of the repository as `example`s over the model: a check of the model against the behaviour the repository expects, not part of the proofs |
| `Verif/Concrete/*.lean` | SHA-256, SHA-384, BLAKE3 and XChaCha20-Poly1305 written out, with published test vectors (quoted from memory, as there is no network; the SHA-2 ones also agree with Python's `hashlib`): `HashLaws` and `AeadLaw` are theorems about them (C78). Ed25519 likewise (`Field25519`: the primes; `Edwards`: the group law; `Ed25519`: the reference program of RFC 8032; `Ed25519Laws`: what it computes): `EdLaws` is a theorem about it (C79). Doubles likewise (`Double`: the texts of ryu and ryu-js and serde_json's reading; `DoubleLaws`, `DoubleDigits`, `DoubleText`, `DoubleRead`, `DoubleNearest`: what they compute): `NumLaws` and `JcsLaws` are theorems about them (C80). PEM texts of private keys (`Pkcs8`) and X25519 (`X25519`) likewise: `PemLaw` and `DhLaw` are theorems about them (C81). The 23 bases of the crate `multibase` (`Bases`, `BasesLaws`): which texts they read and how many carry the same bytes (C82). The date reader of chrono (`Dates`, `DatesLaws`): which texts it takes (C83). The reader of the crate `multiaddr` (`Multiaddr`, `MultiaddrLaws`): which texts are addresses (C84). X25519 in the group of curve25519 (`Montgomery`, `X25519Laws`; C85). Argon2id (`Argon2`; C90). The number of points of the curve of Ed25519 (`CurveOrder`; C93) |
| `Verif/Toy.lean` | a concrete `Env` satisfying every law, used to show hypotheses are satisfiable |

Conventions.

* `&mut self` methods return the new value. `Result` is `Except`, `Option` is `Option`.
* Randomness (`KeyPair::generate`, salts, nonces) is an explicit argument and the theorems quantify over it.
* Panicking operations (slice indexing in `DID::parse_uri`) are modelled with an explicit panic outcome.
* Text of error messages produced inside this repository is modelled; text produced by a dependency is an
  open function of the kind of failure and the input it failed on (`Env.msg`), so texts that are read alike may still
  fail with different messages (`Spec.Alike`: serde_json names line and column). Error constructors are always modelled.
* Generic code (`Integrity<TDoc, TCs>`, `Proofable`, `CryptoSuiteBuilder`, `generate_proof_config` and
  `transform_document` over their option traits) stays generic: the traits are Lean
  structures/classes and the theorems are about every instance, then instantiated for `VC` and `VP`.

## 2. Trusted base

* Lean 4.33.0 kernel. Axioms allowed: `propext`, `Classical.choice`, `Quot.sound`. None added. No
  `native_decide`, `bv_decide`, `sorry`.
* The reading of the Rust source into Lean definitions (each definition cites file and lines).
* The reading of dependencies (sources not available in the sandbox, modelled from their documentation):
  `multibase` 0.9 (base58btc and base16 concretely, other bases as parameter, written out in `Verif/Concrete/Bases`; whether a
  base takes letters of either case is open: `Env.mbFold`), `hex`, `multihash` 0.19,
  `serde`/`serde_json` (derive rules, printer, reader), `serde_jcs` 0.1 (sorted members, compact output,
  same string escapes as serde_json; number format and key order are parameters).
* Not modelled, parameters of `Env`: Ed25519 and X25519 key types, signing and verification, PEM coding,
  SHA-256, SHA-384, BLAKE3, Argon2 KDF, XChaCha20-Poly1305, chrono date parsing, multiaddr parsing, f64
  printing/parsing, canonical number text. JSON of `prople_crypto::KeySecure` is a parameter `KeySecureCodec` (C54).
  The hash functions, the cipher, Ed25519, the texts of f64, PEM texts and X25519 are written out in `Verif/Concrete`, where
  the laws assumed of them are proved (C78, C79, C80, C81); `Spec.Standard` collects these, and under it no law is left
  (`C81_all`). The bases of multibase and chrono's dates are written out too (C82, C83; from memory, chrono 0.4.31 or later), and so are the addresses of multiaddr (C84; from memory, multiaddr 0.18, protocols whose values are IP addresses,
  numbers, host names or peers, or that have none), and Argon2id (C90; that the KDF is Argon2id is read off the names of its cost
  parameters). What stays a parameter is other protocols of multiaddr, the JSON of `KeySecure`, the last years of the range of dates and
  which multibase bases take letters of either case. Padded bases are read as `data-encoding` does, block by block: padding may
  end a block anywhere.
  The texts of f64 suppose serde_json without the features `float_roundtrip` and
  `arbitrary_precision` (the repository gets serde_json through `rst-common` and enables neither) and ryu-js behind serde_jcs. That the crates compute these functions is not checked: their sources are not available here.
* Panics, resource limits and aborts inside dependencies are not modelled (for example a KDF output length the cipher
  does not take, or memory cost parameters the machine cannot serve): a call to a dependency returns a value or an error.
* Cryptographic strength is never assumed. Integrity theorems are reductions: their conclusion offers an
  explicit hash collision or an accepted signature on a different message as the alternative.

## 3. Properties, model and proof plan

| id | modelled by | proof |
|---|---|---|
| C01 | `DID.identity`, base58 | base58 output is in the alphabet; split lemmas |
| C02 | `Account.fromPem/buildPem`, PEM law | rewriting with the PEM round-trip law |
| C03, C04 | `Account.fromKeysecure` step by step | case analysis of every step; AEAD law for C03 only |
| C05 | `DID.identity` | injectivity of base58 + hex; hash collision disjunction |
| C06 | `Identity.account` | split characterisation |
| C07–C10 | `DID.buildUri`, `DID.parseUri`, `Params.buildQuery` | split/join lemmas; fold invariant for "last wins" |
| C11–C14 | `Identity` as state machine over call lists | induction over histories, then refinement to doc/keys |
| C15 | `Primary.decodePubKey` | case analysis, both directions |
| C16, C30, C43 | builders as state machines | induction over histories against list/last-value specs |
| C17, C24, C25 | `validate` functions | case analysis, both directions |
| C18, C26, C27, C46 | JSON printer, reader and derive rules | reader∘printer = id by induction on trees with arbitrary rest input; field lookup |
| C19 | `Pairs.isValid` | property is false of the code (`||` for `&&`): negation with witness + exact characterisation |
| C20–C23 | `hashlink` | base58 bijection |
| C28 | derive rules | permutation invariance of lookup; induction |
| C29 | JCS printer | injectivity through the reader; sorting lemmas |
| C31–C36, C44, C47 | `Integrity`, `EddsaJcs2022` and helpers | full unfolding into an acceptance characterisation, then corollaries |
| C37–C41 | same | properties are false of the code; negation by general theorem and witness, plus the partial statement that does hold |
| C42 | `ProofPurpose` | finite table lifted to all strings |
| C45 | `JSONValue` | UTF-8 round trip both directions |
| C48 | `Params.parseMultiaddr` | case analysis |
| C49 | printers, `toTree` of every type | comparison with literal member lists and an independent printer |
| C50 | `Raw.parse` | equivalence with the RFC 8259 grammar: soundness by induction on fuel, completeness by induction on derivations |
| C51 | `fromSlice`, `decStr`, `decNum`, `decValue`, `structFields`, `X.dec` | reader ⇔ relational description, bottom up by induction |
| C52 | `toJcs`, `verify` | objects with equal canonical trees have the same member names; reduction as in C35 |
| C53 | `toJcs`, `parseJsonBytes` | canonicalising only reorders members; reading is invariant under reordering |
| C54 | `IdentityPrivateKeyPairs.toTree/dec/toJson` (`Model/Secure.lean`) | printer/reader lemmas of C18, relations of C51, combined with C14; JSON of `KeySecure` is a parameter (`KeySecureCodec`) |
| C55 | `DID.identity`, `Identity.toDoc`, `buildPrivateKeys`, `fromKeysecure`, `sign`, `verify` | composition of C12, C14, C15, C18, C31, C54 |
| C56 | `generateFromJson`, `buildUri`, `parseUri`, `verifyFromJson` | composition of C07, C18, C20–C23 |
| C57 | `verify` | as C35, without a known signer |
| C58 | `verify`, readers | C33 with C51 |
| C59 | `verify`, readers, printers | readers bound the nesting (`Lemmas/Depth`), then C26, C27, C53 |
| C60 | `VP.addCredential`, `sign`, `verify` | C31 with C59; sharpness from C27 |
| C61 | `verify`, readers | false for unknown members, which serde skips (`structFields` ignores them at every level); for known members of the document and of its proof (except the proof value) C57 |
| C62 | `Identity.toDoc`, `buildPrivateKeys`, `sign` | iff between equality of outputs of two histories and equality of public parts (C12, C11); signing from C32 |
| C63 | `sign`, `verify` with two member orders | lexicographic comparison of units, code points and bytes related by encoding; C32, C33 under both orders |
| C64 | `sign`, `verify` | case analysis over the history with injectivity of the signed bytes (C36), C32, C33, C52 |
| C65 | `display` functions | prefixes of the variants pairwise clash whatever the payload; table of codes checked against each display |
| C66 | `Params.toTree`, `Params.dec` | as C49, C51 |
| C67 | `Pairs.*`, `KeySecure.decrypt`, `exportKeySecure` | `HoldsHex`, `Decrypts`, `IsRecord` |
| C68 | `addProof`, `verifyProof` and the validators | ordered list of checks with literal texts (`FirstFails`) |
| C69 | identities, `toDoc`, hashlinks, URIs, signing, verifying | traces of events (`Event`), reduction |
| C70 | `Integrity` with any suite; `EddsaJcs2022` with any document type | case analysis without instances; equations on the accessors (`DocLaws`) |
| C71 | `EddsaJcs2022.createProof`, `verifyProof` | as C32, C33, C68 without the gates of `Integrity` |
| C72 | `Account.fromKeysecure`, `KeySecure.decrypt`, `Hashlink`, `JSONValue.tryFrom` | inductive list of failing steps; case analysis both ways |
| C73 | `sign`, `verify` | canonical texts differ at the member `proofValue`; C32, C33, reduction to `Broken` |
| C74 | `DID::identity`, `build_uri`, hashlinks, key and signature texts | number of base58 digits from bounds on the number (leading byte of hex digits, multihash prefix 0x1e20) |
| C75 | `DID::identity`, `Identity::new`, `to_doc` | an identity from a DID is `Identity::new` of its text; C12, C31, C62, C22 |
| C76 | every function returning a `Result` | relation `Fails` with one constructor per operation, compared with a literal table: case analysis, and a witness for each entry |
| C77 | readers of `VC`, `VP`, `Doc` | predicates `BadVC`, `BadVP`, `BadDoc` on token trees, shown to be the complement of the readings of C51; induction on the reason for values, on the tree for the converse |
| C78 | `Verif/Concrete/*`: SHA-2, BLAKE3, XChaCha20-Poly1305 in full | lengths by construction; XOR with the key stream is an involution, block by block; instances of C01, C03, C04, C20–C23 |
| C79 | `Verif/Concrete/{Field25519,Edwards,Ed25519,Ed25519Laws}`: RFC 8032 | Pratt certificates; Edwards addition is a group (polynomial identities, completeness because d is no square); extended coordinates represent points, by induction on the multiplier; square roots for p = 5 mod 8; order of the base point by evaluation |
| C80 | `Verif/Concrete/Double*`: f64, `ryu`, `ryu-js`, serde_json's number reader | rounding is monotone and characterised by nearness over the rationals; 17 digits always suffice (gap between doubles against power of ten); printed texts denote their digits; reading is exact while digits and power of ten are exact doubles |
| C81 | `Verif/Concrete/Pkcs8`, `X25519`: `to_pem`, `from_pem` of prople_crypto, agreement keys | base64 and PEM texts are unique for their bytes (numbers in base 64 against numbers in base 256) and are read back; the rest follows from C02, C14, C55, C62, C67, C78, C79 |
| C82 | `Verif/Concrete/Bases`, `BasesLaws`: `multibase::decode` | a group of bits determines its text and conversely (bits of bytes against bits of digits); numbers in base 10, 36, 58 by value; padded texts are one for each way to cut the length into blocks, counted by a recurrence; texts of different bases differ in their first character |
| C83 | `Verif/Concrete/Dates`, `DatesLaws`: `DateTime<Utc>::from_str` | each step of the reader takes exactly the part of the grammar before a rest it stops at, so the reader is an equivalence; RFC 3339, dateTimeStamp and the printed form of an instant are compared with the grammar |
| C84 | `Verif/Concrete/Multiaddr`, `MultiaddrLaws`: `Multiaddr::from_str` | the reader on segments is an equivalence with the grammar; numeric values contain no separator of a query, so C07 applies; the injected URI is the same text as an honest one |
| C85 | `Verif/Concrete/Montgomery`, `X25519Laws`: agreement pairs, `core/src/identity/mod.rs:11-15` | doubling and differential addition of the ladder represent the group law of Mathlib's Weierstrass curves (all cases, the point at infinity included); induction on the bits; the order of the base point by one evaluation of the ladder and primality |
| C86 | `Verif/Model/Equality`: the derived `PartialEq`, `vc.rs:19-36`, `vp.rs:15-32`, `proof/mod.rs:34` | structural induction on subjects: comparison is equality after mapping each number to its kind and value; a number's canonical text and whether it is a double determine that, by the shortest-digits theorems of C80 |
| C87 | `did/mod.rs:59-121`, `did/query.rs:27-43`, `identity/mod.rs` `to_doc` | induction on the grammar of percent-encoded texts: separators cut it in one way; the rest is C07, C10, C12, C21, C23 |
| C88 | `doc/mod.rs` `decode_pub_key`, `identity/mod.rs` `to_doc` | what `decode_pub_key` accepts are the bytes of a hex text, all below 128 and twice as many as the key has (C15); the prefixes of the suites begin with 0xed and 0xec |
| C89 | `vc.rs:71-95,131-136`, `vp.rs:77-99,133-138`, serde_json's number reader | error analysis of two (three) roundings over the rationals, turned into places by the least gap between doubles; exponents of shortest digits bounded by a finer grid; two largest doubles evaluated; induction on the number of relays |
| C90 | `account/mod.rs:71-107`, `keys/secure.rs`, `Verif/Concrete/Argon2`: Argon2id, BLAKE2b | lengths of the hash functions by induction; the rest is C67, C78, C81 with the key derivation substituted |
| C91 | `verifiable/vc.rs`, `verifiable/vp.rs`, `doc/mod.rs`, `identity/mod.rs:100-160` against the data models of the W3C | any rendering of a JSON value that keeps strings, arrays and the set of members (plain and canonical text) maps the model to conditions on fields; reading by C51 |
| C92 | the whole library, over two environments at once | simulation: `Moves` carries numbers from one environment to the other, every function commutes with it (`Lemmas/Builds.lean`); the rest by the exact characterisations C12, C15, C32, C33, C78, C81, C83, C84, C90 |
| C93 | `proof/eddsa.rs`, `doc/mod.rs:decode_pub_key`, any public key | the group of the curve has 8 q points (`Concrete/CurveOrder.lean`: generator of order 8 q, at most 2 p < 16 q points), so every point not killed by 8 has an order divisible by q; then C57 |
| C94 | `doc/mod.rs:decode_pub_key_agreement`, any key | the ladder computes multiples on the twist too (`Concrete/Twisted.lean`, `Concrete/X25519Twist.lean`); curve and twist have 8 q and 4 q' points (`Concrete/MontgomeryOrder.lean`), so a scalar kills a point exactly if 8 (or 4) does |
| C95 | `proof/eddsa.rs:create_proof`, `verify_proof` | both accepted signatures are linear equations over the field of the prime group order; subtract them; the scalar found makes signatures that meet `Ed25519.verify_iff` |
| C96 | `keys/verification.rs`, `keys/agreement.rs:build_keysecure`, `identity/mod.rs:build_private_keys` | byte `i` of the cipher text is byte `i` of the plaintext under a stream that key and nonce give (induction over blocks); base64 of the fixed DER header for the 49 digits; records read back to salt and nonce of their call |
| C97 | `account/mod.rs:from_keysecure`, `keys/secure.rs:decrypt_agreement` | 2^130 - 5 is prime (Pratt certificate); tags are values of polynomials over that field; different cipher texts give different polynomials without constant term, and their difference takes one of eight values; count roots |
| C98 | `keys/secure.rs:decrypt_verification/decrypt_agreement`, `account/mod.rs:from_keysecure` | tags are linear in the pieces of the cipher text; the pairs (r1^k, r2^k), k = 2..15, are pairwise not parallel because the factors of p - 1 are known; sums of short multiples of seven of them fill more than half of the plane (Cauchy-Davenport line by line), fourteen fill it; PEM frame compared with the streams byte by byte |
| C99 | `proof/eddsa.rs:65-112`, `proof/integrity.rs:verify`, any two public keys | both equations have the same left side, so n A = n' A'; differences of solutions have order dividing n and eight, the points of order eight are the multiples of one; division by n' modulo the prime order |
| C100 | `proof/eddsa.rs`, `proof/integrity.rs:verify` against other verifiers | both equations as statements about points; what eight kills are the multiples of one point, and among multiples of the base point nothing but zero |
| C101 | callers of `add_proof`, `verify_proof`, `parse_json_bytes`, `to_jcs` | programs around the modelled functions; exact characterisation of what they return, then each claim from it |
| C102 | callers of `DID::identity`, `Account::signature`, `to_doc`, `decode_pub_key` and the careful reader | events of many parties in any order; lookup of keys reduced to C12, C15, C18; then C101 and C64 |
| C103 | `Integrity::{new,add_proof,verify_proof}` with a suite of the caller | C70 for any suite; configuration compared with the specification of C73; search over the beginnings of the contexts |
| C104 | `doc/mod.rs` `decode_pub_key`, `account/mod.rs:71-107`, `keys/secure.rs` with checks of the caller | C15 and C88 for the texts, entry by entry; C14 and C56 for exports; C94 for agreement |
| C105 | `proof/mod.rs` `Proof`, `vp.rs`, with questions asked by the caller | C61 for members ignored; C101 and C102 with the identifier of the proof as question; invariant over histories of a verifier: open + answered = asked |
| C106 | `proof/integrity.rs`, `eddsa.rs`, `vc.rs`, `vp.rs`, with a reader and an issuer of the caller | C101 for the reader; dates against `Shape` of C83; the eight keys of C93; C92 for texts of the same contents in two builds; C33 for the issuer's own reading |
| C107 | `account/mod.rs:signature`, `proof/hash.rs`, with labels of the caller | C32 for the credential from a raw signature; lengths and first bytes for the separation; C64, C102 and C105 with the raw alternative excluded |
| C108 | `vc.rs`, `vp.rs`, `proof/integrity.rs`, with checks of the caller | exactness of each check by cases on the fields; C91 between fields and texts; C101 for signer and reader; C63 for both orders |
| C109 | `did/mod.rs:build_uri, parse_uri`, with encoding and a check by the caller | C87 for the encoding; the reader compares the text with the link of what it read; C05, C22, C84 for what links carry |
| C110 | `keys/verification.rs`, `keys/agreement.rs:build_keysecure`, `identity/mod.rs:build_private_keys`, with a vault of the caller | the comparison is exact; invariant over all histories; C96 for the records of the library |
| C111 | `integrity.rs`, `vc.rs`, `vp.rs`, with all the checks of C101, C106 and C108 by the caller | exact reader from C106 and C108; names are kept from build to build; the issuer's text passes all checks |
| C112 | `integrity.rs`, `vp.rs`, with the questions of C105 and the checks of C111 by the caller | the text of a question is a URI; naming the holder is kept from build to build; exact reader from C111 |

## 4. Findings in the code

Properties a reader would expect that the code does not have. Each is proved as a negation, with the part that does
hold as `_partial`.

| id | where | finding |
|---|---|---|
| C19 | `core/src/keys/verification.rs`, `core/src/keys/agreement.rs` `is_valid` | `\|\|` where `&&` is meant: a pair with an empty public key text passes |
| C37 | `core/src/verifiable/proof/eddsa.rs` `create_proof` | options with a stale proof value, or a document that already has a proof, sign successfully but never verify |
| C38 | `eddsa.rs` `verify_proof` | the base of the multibase proof value is ignored, so a proof can be respelled: every signed document is accepted with more than 13 quintillion proof values (`C82_vc`, `C82_vp`) |
| C39 | `verify_proof` | `expires` is never read |
| C40 | `vp.rs`, `integrity.rs` | credentials embedded in a presentation are neither validated nor verified |
| C41 | `integrity.rs` | the key is not linked to `verificationMethod`, `issuer` or `holder` |
| C61 | `vc.rs`, `vp.rs`, `proof/types` | unknown members of a received VC, VP or proof are skipped, hence not covered by the signature: `validFrom`, `validUntil`, `credentialStatus` can be added, changed or removed by anybody |
| C63 | `vc.rs`, `vp.rs` `to_jcs` (`serde_jcs`) | should the library order members by UTF-8 bytes, signatures over subjects that mix names in U+E000..U+FFFF with names above U+FFFF are not interoperable with RFC 8785 (`C63_bytes_differ`) |
| C64 | `core/src/account/mod.rs` | `Account::signature` signs chosen bytes with the key that signs documents, without domain separation: signing 64 chosen bytes signs a document |
| C73 | `proof/mod.rs` `remove_proof_value`, `eddsa.rs` | the hashed proof configuration contains `"proofValue":""`, which the W3C Recommendation removes, and no `@context`: proofs are not interoperable with other implementations of `eddsa-jcs-2022` (a suite of the caller mends it, C103) |
| C75 | `did/mod.rs` `identity`, `identity/mod.rs` `to_doc` | nothing in a DID document is tied to the account key behind the DID (no self-signature, fresh keys): anybody can make a document for any DID; only the hashlink of a URI obtained from the owner ties them |
| C76 | `types.rs`, `proof/types.rs`, `keys/*.rs` | 21 of the declared error variants are never returned; `InvalidDomainError` and `InvalidChallengeError` announce checks of domain and challenge that do not exist |
| C77 | `vc.rs`, `vp.rs`, `doc/mod.rs` derived readers | documents in forms that the W3C data models allow are refused: single-string `@context` or `type`, embedded contexts, issuer or holder objects, no `id`, proof sets, proofs without `id`, keys by reference; `verificationMethod` and `keyAgreement` of a DID document are skipped |
| C07 | `core/src/did/query.rs` | no escaping: values with `?`, `&`, `=` do not survive build and parse |
| C26 | `vc.rs` | a subject nested more than 126 deep can be signed and written but not read back; a float that serde_json does not read back exactly (`float_roundtrip` is not enabled) changes on the way |
| C80 | `vc.rs`, `vp.rs` `to_json`, `parse_json_bytes` | a signed document with such a float (9007199254740991.0 is one) is refused when it is sent as its own JSON text; decimals of at most 15 digits are safe; `1` and `1.0` are not told apart by a signature |
| C83 | `proof/mod.rs` `validate_created` | the creation date is read by chrono's relaxed reader: `Utc::now().to_string()` (blanks, `UTC`), which the repository's tests sign with, is accepted and signed although it is no dateTimeStamp; the dateTimeStamps with hour 24 or a year of more than four digits without sign are refused, and `+10000`, which is none, is accepted |
| C84 | `core/src/did/query.rs` | `parse_multiaddr` is no check on what may enter a URI: host names of valid addresses may contain `&hl=`, which sets a hashlink, and may be empty |
| C87 | `did/mod.rs` `parse_uri`, `build_uri` | fragments and paths of DID URLs are not understood: a fragment becomes part of the last value (a hashlink with it fits no data), a path part of the DID; values are not percent-encoded, so an address or hashlink with a blank, `#` or a letter outside ASCII gives a text that is no DID URL |
| C88 | `doc/mod.rs`, `identity/mod.rs` | documents name the W3C key suites of 2020 but write keys otherwise (base58btc of the hex text, no multicodec prefix): no published key is readable for other implementations, and every key written as the suites say is refused (a caller can translate, C104) |
| C89 | `vc.rs`, `vp.rs`, serde_json without `float_roundtrip` | a number may change each time a document is sent as JSON: 5.685185610919394e-16 moves one place each time, 15 times; 9.491132674283999e+35 and 9.491132674284e+35 are read as each other for ever |
| C90 | `account/mod.rs:76-88` | the cost of key derivation is read from the record with no least value: a record at 8 KiB and one pass is restored like any other (a caller can check, C104) |
| C91 | `vc.rs:validate`, `vp.rs:validate` | the requirements of the data model (first context, type, URIs, claims) are not checked when writing, signing or verifying |
| C91 | `vc.rs` (struct `VC`) | credentials by the data model with an issuer object, a context object, a single type or no `id` cannot be read |
| C91 | `identity/mod.rs:to_doc`, `doc/mod.rs` | X25519 keys are listed under `authentication` and `assertionMethod`; there is no `keyAgreement` |
| C92 | `proof/integrity.rs`, `account/mod.rs:build_pem` | whether a date in the year 262143 can be signed with, whether upper-case multibase texts are read, whether a key of small order accepts anything, and what a PEM text looks like is up to the versions of the dependencies |
| C93 | `doc/mod.rs:75-89`, `proof/eddsa.rs:65-112` | keys of small order are not refused when a document is read; unless the Ed25519 dependency refuses them itself, documents under such a key are accepted though nobody signed them |
| C94 | `doc/mod.rs:91-107` | agreement keys are not checked when a document is read: keys from which everybody computes the all-zero value are decoded, and so are several keys that amount to the same (a caller can refuse zero, C104) |
| C96 | `keys/verification.rs:48-58`, `keys/agreement.rs:34-44` | nothing but randomness keeps salts and nonces apart; if they repeat, 49 of 64 digits of an agreement secret are read from two records of one export |
| C98 | `keys/secure.rs:decrypt_verification/decrypt_agreement` | whatever the cipher text opens to is returned: a record may open under two passwords, and nothing is checked of its form (accounts are safer: both texts must be PEM; a caller can compare with the document, C104) |
| C100 | `proof/eddsa.rs:65-112` | the suite does not say which verification equation of RFC 8032 applies: a signer can make credentials that one conforming verifier accepts and another refuses (`C100_split_vc`) |
| C105 | `proof/mod.rs:36-66`, `vp.rs` | a proof names neither verifier nor occasion and nothing relates credentials to the holder: presentations can be replayed to any verifier, and credentials presented by whoever has their text (a caller can ask questions, C105) |
| C106 | `proof/integrity.rs:verify_proof`, `eddsa.rs` | whether a text is accepted depends on the versions of the dependencies (dates, weak keys; C92, C93, C100); a caller with checks of its own gets the same answer from all of them (C106) |
| C107 | `account/mod.rs:signature` | signs any bytes, also the 64 bytes of a proof: one raw signature is one credential; a caller can put a label before the bytes (C107) |
| C108 | `vc.rs`, `vp.rs:validate` | checks neither the data model (C91) nor the names (C63); a caller can, with checks of the fields alone (C108) |
| C109 | `did/mod.rs:build_uri, parse_uri` | escape nothing and take any text (C07, C84, C87); a caller can encode the values and accept only its own texts (C109) |
| C110 | `build_keysecure`, `build_private_keys` | look at no earlier record, so a repeated salt and nonce goes unnoticed (C96); a caller can keep a vault that refuses them and export again (C110) |
| C111 | `integrity.rs`, `vc.rs`, `vp.rs` | the remedies of C101, C106 and C108 can be used together; none refuses what the others make (C111) |
| C112 | `integrity.rs`, `vp.rs` | the remedy of C105 against replays can be used together with those of C111 (C112) |

## 5. Laws and axioms of each theorem

Laws are hypotheses, never axioms: the seven of `Verif/Env.lean`, which `Verif/Toy.lean` shows to hold together, and statements
that a dependency is a given program or standard, which are theirs to meet and which the worlds `signing`, `numeric`,
`standard` show to hold.

* `HashLaws`: output lengths of SHA-256, SHA-384, BLAKE3 (proved of these functions in C78).
* `EdLaws`: a signature verifies under its own public key; the public key is determined by its bytes (proved of Ed25519 in
  C79).
* `PemLaw`, `DhLaw`, `AeadLaw`: import after export, decoding after encoding, decryption after encryption (`AeadLaw` is proved of
  XChaCha20-Poly1305 in C78, `PemLaw` of PEM texts and `DhLaw` of X25519 in C81).
* `NumLaws`: the printed form of a float is a JSON number token that is not an integer token. That it parses back to
  the same float is *not* assumed (serde_json without the feature `float_roundtrip` does not guarantee it); theorems
  that need it carry the hypothesis `Survives` about the floats of the document at hand, and `C26_exact`, `C27_exact`
  prove that hypothesis necessary (`NumLaws` is proved of the texts of `ryu` in C80, where `Survives` is proved of decimals
  of at most 15 digits and refuted of others).
* `JcsLaws`: canonical numbers are JSON number tokens; the canonical key order is a total order (proved of the texts of
  `ryu-js` and the order of UTF-16 in C80).
* `Actual`: SHA-256, SHA-384, BLAKE3 and XChaCha20-Poly1305 are the functions of `Verif/Concrete`.
* `Argon2Keys`: keys are derived with Argon2id.
* `Ed25519Keys`: key pairs, signatures and the verification under keys of key pairs are those of RFC 8032. `Rfc8032Sound`,
  `Rfc8032Verify`: under every key that is a point, nothing is accepted that RFC 8032 refuses, or exactly what it accepts (a
  dependency that refuses weak keys meets the first, not the second).
* `X25519Keys`, `Pkcs8Keys`: key agreement is RFC 7748; private keys are written and read as PEM texts of RFC 8410.
* `Doubles`: floats are finite doubles, written as `ryu` and `ryu-js` write them. `CrateBases`, `CrateAddrs`, `ChronoDates`: the
  other bases of `multibase`, the addresses of `multiaddr`, the dates of `chrono`.
* `Standard` and `Conforms` collect these.

<!-- axioms begin -->
| theorem | laws assumed of `Env` | axioms |
|---|---|---|
| `C01_identity_syntax` | HashLaws | propext, choice, sound |
| `C02_pem_accept` | - | propext |
| `C02_pem_reject` | - | propext |
| `C02_pem_roundtrip` | PemLaw | propext, choice, sound |
| `C03_keysecure_restore` | PemLaw, AeadLaw | propext, choice, sound |
| `C04_did_keysecure` | - | propext, choice, sound |
| `C04_keysecure_accept_iff` | - | propext, choice, sound |
| `C04_keysecure_errors` | - | propext, choice, sound |
| `C04_wrong_password` | - | propext, choice, sound |
| `C05_did_identifies_key` | - | propext, choice, sound |
| `C05_distinct_keys` | EdLaws | propext, choice, sound |
| `C06_identity_account` | - | propext, choice, sound |
| `C07_builds` | - | propext, choice, sound |
| `C07_uri_roundtrip` | - | propext, choice, sound |
| `C08_parse_uri_total` | - | propext, choice, sound |
| `C09_parse_uri_params` | - | propext, choice, sound |
| `C09_unknown_segment_ignored` | - | propext, choice, sound |
| `C100_binds` | - | propext, choice, sound |
| `C100_gap` | - | propext, choice, sound |
| `C100_library` | JcsLaws, Rfc8032Verify | propext, choice, sound |
| `C100_order` | - | propext, choice, sound |
| `C100_signed` | JcsLaws, Ed25519Keys | propext, choice, sound |
| `C100_split_vc` | NumLaws, JcsLaws, Ed25519Keys | propext, choice, sound |
| `C100_split_vp` | NumLaws, JcsLaws, Ed25519Keys | propext, choice, sound |
| `C100_strict` | Ed25519Keys | propext, choice, sound |
| `C101_bytes_vc` | HashLaws, JcsLaws | propext, choice, sound |
| `C101_bytes_vp` | HashLaws, JcsLaws | propext, choice, sound |
| `C101_claims_vc` | JcsLaws | propext, choice, sound |
| `C101_claims_vp` | JcsLaws | propext, choice, sound |
| `C101_honest_vc` | EdLaws, JcsLaws | propext, choice, sound |
| `C101_honest_vp` | EdLaws, JcsLaws | propext, choice, sound |
| `C101_member` | HashLaws, JcsLaws | propext, choice, sound |
| `C101_sign_iff` | JcsLaws | propext, choice, sound |
| `C101_sign_vc` | EdLaws, NumLaws, JcsLaws | propext, choice, sound |
| `C101_sign_vp` | EdLaws, NumLaws, JcsLaws | propext, choice, sound |
| `C101_signed_bytes_vc` | HashLaws, JcsLaws | propext, choice, sound |
| `C101_signed_bytes_vp` | HashLaws, JcsLaws | propext, choice, sound |
| `C101_vc` | JcsLaws | propext, choice, sound |
| `C101_vp` | JcsLaws | propext, choice, sound |
| `C102_complete_vc` | EdLaws, NumLaws, JcsLaws | propext, choice, sound |
| `C102_complete_vp` | EdLaws, NumLaws, JcsLaws | propext, choice, sound |
| `C102_found` | EdLaws, NumLaws | propext, choice, sound |
| `C102_honest_vc` | HashLaws, EdLaws, NumLaws, JcsLaws | propext, choice, sound |
| `C102_honest_vp` | HashLaws, EdLaws, NumLaws, JcsLaws | propext, choice, sound |
| `C102_impostor` | EdLaws, JcsLaws | propext, choice, sound |
| `C102_key` | HashLaws, EdLaws, NumLaws | propext, choice, sound |
| `C102_vc` | HashLaws, EdLaws, NumLaws, JcsLaws | propext, choice, sound |
| `C102_vp` | HashLaws, EdLaws, NumLaws, JcsLaws | propext, choice, sound |
| `C103_accepts_vc` | JcsLaws | propext, choice, sound |
| `C103_accepts_vp` | JcsLaws | propext, choice, sound |
| `C103_add_vc` | JcsLaws | propext, choice, sound |
| `C103_add_vp` | JcsLaws | propext, choice, sound |
| `C103_apart_vc` | HashLaws, JcsLaws | propext, choice, sound |
| `C103_apart_vp` | HashLaws, JcsLaws | propext, choice, sound |
| `C103_full` | EdLaws, JcsLaws | propext, choice, sound |
| `C103_one_vc` | HashLaws, JcsLaws | propext, choice, sound |
| `C103_one_vp` | HashLaws, JcsLaws | propext, choice, sound |
| `C103_received_vc` | HashLaws, EdLaws, JcsLaws | propext, choice, sound |
| `C103_received_vp` | HashLaws, EdLaws, JcsLaws | propext, choice, sound |
| `C103_returns_vc` | JcsLaws | propext, choice, sound |
| `C103_returns_vp` | JcsLaws | propext, choice, sound |
| `C103_sent_vc` | EdLaws, JcsLaws | propext, choice, sound |
| `C103_sent_vp` | EdLaws, JcsLaws | propext, choice, sound |
| `C103_text_vc` | - | propext, choice, sound |
| `C103_text_vp` | - | propext, choice, sound |
| `C104_agree` | X25519Keys | propext, choice, sound |
| `C104_back_and_there` | - | propext, choice, sound |
| `C104_chain` | EdLaws, PemLaw, DhLaw, AeadLaw, NumLaws, JcsLaws | propext, choice, sound |
| `C104_export` | - | propext, choice, sound |
| `C104_export_entry` | - | propext, choice, sound |
| `C104_import` | - | propext, choice, sound |
| `C104_import_entry` | - | propext, choice, sound |
| `C104_import_key` | - | propext, choice, sound |
| `C104_restore` | EdLaws | propext, choice, sound |
| `C104_restore_honest` | EdLaws, PemLaw, DhLaw, AeadLaw | propext, choice, sound |
| `C104_restore_one` | EdLaws | propext, choice, sound |
| `C104_restore_signs` | EdLaws, NumLaws, JcsLaws | propext, choice, sound |
| `C104_secret` | - | propext, choice, sound |
| `C104_secret_honest` | AeadLaw, X25519Keys | propext, choice, sound |
| `C104_secret_same` | X25519Keys | propext, choice, sound |
| `C104_there_and_back` | - | propext, choice, sound |
| `C104_written` | EdLaws, DhLaw | propext, choice, sound |
| `C105_agreement` | HashLaws, EdLaws, NumLaws, JcsLaws | propext, choice, sound |
| `C105_borrowed` | EdLaws, JcsLaws | propext, choice, sound |
| `C105_complete` | EdLaws, NumLaws, JcsLaws | propext, choice, sound |
| `C105_elsewhere` | JcsLaws | propext, choice, sound |
| `C105_history` | - | propext, choice, sound |
| `C105_honest` | EdLaws, JcsLaws | propext, choice, sound |
| `C105_ignored` | - | propext, choice, sound |
| `C105_injective` | - | propext, choice, sound |
| `C105_once` | JcsLaws | propext, choice, sound |
| `C105_one` | JcsLaws | propext, choice, sound |
| `C105_question` | - | propext, choice, sound |
| `C105_read` | JcsLaws | propext, choice, sound |
| `C105_replay` | JcsLaws | propext, choice, sound |
| `C105_step` | - | propext, choice, sound |
| `C106_all_vc` | Between, Conforms | propext, choice, sound |
| `C106_all_vp` | Between, Conforms | propext, choice, sound |
| `C106_date` | - | propext, choice, sound |
| `C106_dates` | ChronoDates | propext, choice, sound |
| `C106_issue_vc` | Conforms | propext, choice, sound |
| `C106_issue_vp` | Between, Conforms | propext, choice, sound |
| `C106_issued_vc` | Between, Conforms | propext, choice, sound |
| `C106_issued_vp` | Between, Conforms | propext, choice, sound |
| `C106_key` | - | propext, choice, sound |
| `C106_same_vc` | Between, Conforms | propext, choice, sound |
| `C106_same_vp` | Between, Conforms | propext, choice, sound |
| `C106_vc` | Between, Conforms | propext, choice, sound |
| `C106_vp` | Between, Conforms | propext, choice, sound |
| `C106_wider` | Between, Conforms | propext, choice, sound |
| `C107_apart` | HashLaws | propext, choice, sound |
| `C107_checks` | EdLaws | propext, choice, sound |
| `C107_checks_did` | EdLaws | propext, choice, sound |
| `C107_frame` | - | propext, choice, sound |
| `C107_raw_vc` | HashLaws, JcsLaws | propext, choice, sound |
| `C107_raw_vp` | HashLaws, JcsLaws | propext, choice, sound |
| `C107_stamp` | HashLaws | propext, choice, sound |
| `C107_trace_answer` | HashLaws, EdLaws, NumLaws, JcsLaws | propext, choice, sound |
| `C107_trace_stamp` | HashLaws, EdLaws | propext, choice, sound |
| `C107_trace_vc` | HashLaws, EdLaws, NumLaws, JcsLaws | propext, choice, sound |
| `C107_trace_vp` | HashLaws, EdLaws, NumLaws, JcsLaws | propext, choice, sound |
| `C107_vc` | HashLaws, JcsLaws | propext, choice, sound |
| `C107_vp` | HashLaws, JcsLaws | propext, choice, sound |
| `C108_credential` | - | propext, choice, sound |
| `C108_honest_vc` | EdLaws, JcsLaws | propext, choice, sound |
| `C108_honest_vp` | EdLaws, JcsLaws | propext, choice, sound |
| `C108_names` | - | propext, choice, sound |
| `C108_order_read` | JcsLaws | propext, choice, sound |
| `C108_order_sign` | JcsLaws | propext, choice, sound |
| `C108_presentation` | - | propext, choice, sound |
| `C108_read_vc` | JcsLaws | propext, choice, sound |
| `C108_read_vp` | JcsLaws | propext, choice, sound |
| `C108_sign_vc` | JcsLaws | propext, choice, sound |
| `C108_sign_vp` | JcsLaws | propext, choice, sound |
| `C108_uri` | - | propext, choice, sound |
| `C108_written` | NumLaws, JcsLaws | propext, choice, sound |
| `C109_address` | HashLaws, CrateAddrs | propext, choice, sound |
| `C109_chars` | - | propext, choice, sound |
| `C109_library` | - | propext, choice, sound |
| `C109_make` | HashLaws | propext, choice, sound |
| `C109_read` | - | propext, choice, sound |
| `C109_refused` | - | propext, choice, sound |
| `C109_roundtrip` | HashLaws | propext, choice, sound |
| `C109_trust` | HashLaws | propext, choice, sound |
| `C109_unique` | - | propext, choice, sound |
| `C109_url` | - | propext, choice, sound |
| `C10_build_uri` | - | propext, choice, sound |
| `C110_all` |  (proves ) | propext, choice, sound |
| `C110_clash` | - | propext, choice, sound |
| `C110_fresh` | - | propext, choice, sound |
| `C110_keeps` | - | propext, choice, sound |
| `C110_never` | - | propext, choice, sound |
| `C110_put` | - | propext, choice, sound |
| `C110_refused` | - | propext, choice, sound |
| `C110_save` | - | propext, choice, sound |
| `C110_streams` | - | propext, choice, sound |
| `C111_below` | - | propext, choice, sound |
| `C111_inside` | Between, Conforms | propext, choice, sound |
| `C111_issue_vc` | Between, Conforms | propext, choice, sound |
| `C111_issue_vp` | Between, Conforms | propext, choice, sound |
| `C111_issued` | Between, Conforms | propext, choice, sound |
| `C111_order` | JcsLaws | propext, choice, sound |
| `C111_same` | Between, Conforms | propext, choice, sound |
| `C111_vc` | Between, Conforms | propext, choice, sound |
| `C111_vp` | Between, Conforms | propext, choice, sound |
| `C111_wider` | Between, Conforms | propext, choice, sound |
| `C112_answer` | Between, Conforms | propext, choice, sound |
| `C112_below` | JcsLaws | propext, choice, sound |
| `C112_one` | Conforms | propext, choice, sound |
| `C112_read` | Between, Conforms | propext, choice, sound |
| `C112_same` | Between, Conforms | propext, choice, sound |
| `C112_sent` | Between, Conforms | propext, choice, sound |
| `C112_uri` | - | propext, choice, sound |
| `C112_wider` | Between, Conforms | propext, choice, sound |
| `C11_first_call_wins` | - | propext, choice, sound |
| `C11_later_calls_ignored` | - | propext, choice, sound |
| `C12_document` | - | propext, choice, sound |
| `C13_published_keys` | EdLaws, DhLaw | propext, choice, sound |
| `C14_error_class` | - | propext |
| `C14_private_keys` | AeadLaw | propext, choice, sound |
| `C14_published` | EdLaws, PemLaw, DhLaw, AeadLaw | propext, choice, sound |
| `C14_restores_account` | PemLaw, AeadLaw | propext, choice, sound |
| `C15_base_irrelevant` | - | propext, choice, sound |
| `C15_ecdh` | - | propext, choice, sound |
| `C15_eddsa` | - | propext, choice, sound |
| `C15_errors` | - | propext, choice, sound |
| `C16_absent_iff` | - | propext, choice, sound |
| `C16_builder_history` | - | propext, choice, sound |
| `C16_commute` | - | none |
| `C17_built_docs_validate` | - | propext, choice, sound |
| `C17_identity_docs_validate` | - | propext, choice, sound |
| `C17_validate_errors` | - | propext, choice, sound |
| `C17_validate_iff` | - | propext, choice, sound |
| `C18_json_roundtrip` | NumLaws | propext, choice, sound |
| `C18_text_injective` | NumLaws | propext, choice, sound |
| `C19_blind` | - | propext, sound |
| `C19_checked` | - | propext, choice, sound |
| `C19_generated` | - | propext, choice, sound |
| `C19_is_valid_counterexample` | - | propext |
| `C19_is_valid_partial` | - | propext, sound |
| `C20_roundtrip` | HashLaws | propext, choice, sound |
| `C21_exact` | HashLaws | propext, choice, sound |
| `C22_integrity` | HashLaws | propext, choice, sound |
| `C23_shape` | HashLaws | propext, choice, sound |
| `C24_serialise_iff` | - | propext, choice, sound |
| `C24_validate` | - | propext, choice, sound |
| `C25_embedded_not_validated` | - | propext, choice, sound |
| `C25_serialise_iff` | - | propext, choice, sound |
| `C25_validate` | - | propext, choice, sound |
| `C26_exact` | NumLaws | propext, choice, sound |
| `C26_json_roundtrip` | NumLaws | propext, choice, sound |
| `C26_reread` | NumLaws | propext, choice, sound |
| `C26_too_deep` | NumLaws | propext, choice, sound |
| `C26_unreadable` | NumLaws | propext, choice, sound |
| `C27_exact` | NumLaws | propext, choice, sound |
| `C27_json_roundtrip` | NumLaws | propext, choice, sound |
| `C27_too_deep` | NumLaws | propext, choice, sound |
| `C28_duplicate_vc` | - | propext, choice, sound |
| `C28_duplicate_vp` | - | propext, choice, sound |
| `C28_missing_vc` | - | propext, choice, sound |
| `C28_missing_vp` | - | propext, choice, sound |
| `C28_order_doc` | - | propext, choice, sound |
| `C28_order_vc` | - | propext, choice, sound |
| `C28_order_vp` | - | propext, choice, sound |
| `C28_unknown_vc` | - | propext, choice, sound |
| `C28_unknown_vp` | - | propext, choice, sound |
| `C29_order_independent` | JcsLaws | propext, sound |
| `C29_proof` | JcsLaws | propext, choice, sound |
| `C29_vc` | JcsLaws | propext, choice, sound |
| `C29_vp` | JcsLaws | propext, choice, sound |
| `C30_vc_history` | - | propext, sound |
| `C30_vc_proof_slot` | - | propext, choice, sound |
| `C30_vp_history` | - | propext, sound |
| `C30_vp_proof_slot` | - | propext, choice, sound |
| `C31_vc` | EdLaws, NumLaws, JcsLaws | propext, choice, sound |
| `C31_vp` | EdLaws, NumLaws, JcsLaws | propext, choice, sound |
| `C32_vc` | JcsLaws | propext, choice, sound |
| `C32_vp` | JcsLaws | propext, choice, sound |
| `C33_vc` | JcsLaws | propext, choice, sound |
| `C33_vp` | JcsLaws | propext, choice, sound |
| `C34_vc` | JcsLaws | propext, choice, sound |
| `C34_vp` | JcsLaws | propext, choice, sound |
| `C35_vc` | HashLaws, JcsLaws | propext, choice, sound |
| `C35_vp` | HashLaws, JcsLaws | propext, choice, sound |
| `C36_sign` | - | propext, choice, sound |
| `C36_unknown_not_signed` | JcsLaws | propext, choice, sound |
| `C36_verify` | - | propext, choice, sound |
| `C37_full_false` | - (in a world with HashLaws, EdLaws, NumLaws, JcsLaws) | propext, choice, sound |
| `C37_stale_vc` | HashLaws, JcsLaws | propext, choice, sound |
| `C37_stale_vp` | HashLaws, JcsLaws | propext, choice, sound |
| `C37_vc_partial` | EdLaws, NumLaws, JcsLaws | propext, choice, sound |
| `C37_vp_partial` | EdLaws, NumLaws, JcsLaws | propext, choice, sound |
| `C38_full_false` | EdLaws, NumLaws, JcsLaws | propext, choice, sound |
| `C38_respelled_vc` | EdLaws, NumLaws, JcsLaws | propext, choice, sound |
| `C38_respelled_vp` | EdLaws, NumLaws, JcsLaws | propext, choice, sound |
| `C38_vc_partial` | JcsLaws | propext, choice, sound |
| `C38_vp_partial` | JcsLaws | propext, choice, sound |
| `C39_any_expiry` | EdLaws, NumLaws, JcsLaws | propext, choice, sound |
| `C39_full_false` | EdLaws, NumLaws, JcsLaws | propext, choice, sound |
| `C39_vc_partial` | HashLaws, JcsLaws | propext, choice, sound |
| `C39_vp_partial` | HashLaws, JcsLaws | propext, choice, sound |
| `C40_any_credentials` | EdLaws, NumLaws, JcsLaws | propext, choice, sound |
| `C40_bad_proof` | EdLaws, NumLaws, JcsLaws | propext, choice, sound |
| `C40_full_false` | EdLaws, NumLaws, JcsLaws | propext, choice, sound |
| `C40_partial` | HashLaws, JcsLaws | propext, choice, sound |
| `C41_any_key` | EdLaws, NumLaws, JcsLaws | propext, choice, sound |
| `C41_full_false` | EdLaws, NumLaws, JcsLaws | propext, choice, sound |
| `C41_vc_partial` | HashLaws, JcsLaws | propext, choice, sound |
| `C41_vp_partial` | HashLaws, JcsLaws | propext, choice, sound |
| `C42_display` | - | propext, choice, sound |
| `C42_json` | - | propext, choice, sound |
| `C42_of_string` | - | propext, choice, sound |
| `C43_commute` | - | propext, choice, sound |
| `C43_history` | - | propext, choice, sound |
| `C43_initial` | - | propext, choice, sound |
| `C43_remove_proof_value` | - | none |
| `C44_vc` | JcsLaws | propext, choice, sound |
| `C44_vp` | JcsLaws | propext, choice, sound |
| `C45_to_bytes` | - | propext, choice, sound |
| `C45_try_from` | - | propext, choice, sound |
| `C46_default` | - | propext, choice, sound |
| `C46_json_roundtrip` | NumLaws | propext, choice, sound |
| `C46_text` | NumLaws | propext, choice, sound |
| `C47_hashers` | - | propext, choice, sound |
| `C47_layout` | HashLaws, JcsLaws | propext, choice, sound |
| `C47_separated` | HashLaws | propext |
| `C48_parse_multiaddr` | - | propext |
| `C49_doc_text` | NumLaws | propext, choice, sound |
| `C49_proof_canonical` | JcsLaws | propext, choice, sound |
| `C49_vc_canonical` | JcsLaws | propext, choice, sound |
| `C49_vc_text` | NumLaws | propext, choice, sound |
| `C49_vp_canonical` | JcsLaws | propext, choice, sound |
| `C49_vp_text` | NumLaws | propext, choice, sound |
| `C50_not_json` | - | propext, choice, sound |
| `C50_unambiguous` | - | propext, sound |
| `C50_white_space` | - | propext, choice, sound |
| `C51_reads_connection` | - | propext, choice, sound |
| `C51_reads_doc` | - | propext, choice, sound |
| `C51_reads_proof` | - | propext, choice, sound |
| `C51_reads_vc` | - | propext, choice, sound |
| `C51_reads_vp` | - | propext, choice, sound |
| `C51_unique_vc` | - | propext, choice, sound |
| `C51_unique_vp` | - | propext, choice, sound |
| `C52_both` | HashLaws, JcsLaws | propext, choice, sound |
| `C52_readers` | NumLaws | propext, choice, sound |
| `C52_texts` | JcsLaws | propext, choice, sound |
| `C52_vc_as_vp` | HashLaws, JcsLaws | propext, choice, sound |
| `C52_vp_as_vc` | HashLaws, JcsLaws | propext, choice, sound |
| `C53_same_verdict_vc` | JcsLaws | propext, choice, sound |
| `C53_same_verdict_vp` | JcsLaws | propext, choice, sound |
| `C53_sent_vc` | EdLaws, JcsLaws | propext, choice, sound |
| `C53_sent_vp` | EdLaws, JcsLaws | propext, choice, sound |
| `C53_vc` | JcsLaws | propext, choice, sound |
| `C53_vp` | JcsLaws | propext, choice, sound |
| `C54_json_roundtrip` | NumLaws | propext, choice, sound |
| `C54_reads` | - | propext, choice, sound |
| `C54_stored` | AeadLaw, NumLaws | propext, choice, sound |
| `C54_text` | NumLaws | propext, choice, sound |
| `C55_chain` | EdLaws, PemLaw, DhLaw, AeadLaw, NumLaws, JcsLaws | propext, choice, sound |
| `C56_document` | HashLaws, NumLaws | propext, choice, sound |
| `C56_uri` | HashLaws | propext, choice, sound |
| `C57_vc` | HashLaws, JcsLaws | propext, choice, sound |
| `C57_vp` | HashLaws, JcsLaws | propext, choice, sound |
| `C58_vc` | JcsLaws | propext, choice, sound |
| `C58_vp` | JcsLaws | propext, choice, sound |
| `C59_alike` | - | propext, choice, sound |
| `C59_canonical_vc` | JcsLaws | propext, choice, sound |
| `C59_canonical_vp` | JcsLaws | propext, choice, sound |
| `C59_doc` | NumLaws | propext, choice, sound |
| `C59_only_parsed` | - | propext, choice, sound |
| `C59_vc` | NumLaws, JcsLaws | propext, choice, sound |
| `C59_vp` | NumLaws, JcsLaws | propext, choice, sound |
| `C60_embedded` | EdLaws, NumLaws, JcsLaws | propext, choice, sound |
| `C60_extract` | NumLaws | propext, choice, sound |
| `C60_too_deep` | NumLaws, JcsLaws | propext, choice, sound |
| `C61_add_anything` | - | propext, choice, sound |
| `C61_full_false` | - | propext, choice, sound |
| `C61_ignored_vc` | - | propext, choice, sound |
| `C61_ignored_vp` | - | propext, choice, sound |
| `C61_vc_partial` | HashLaws, JcsLaws | propext, choice, sound |
| `C61_vc_proof_partial` | HashLaws, JcsLaws | propext, choice, sound |
| `C61_vp_partial` | HashLaws, JcsLaws | propext, choice, sound |
| `C61_vp_proof_partial` | HashLaws, JcsLaws | propext, choice, sound |
| `C62_document` | - | propext, choice, sound |
| `C62_export` | - | propext, choice, sound |
| `C62_signing_vc` | JcsLaws | propext, choice, sound |
| `C62_signing_vp` | JcsLaws | propext, choice, sound |
| `C62_text` | NumLaws | propext, choice, sound |
| `C63_agree` | - | propext, choice, sound |
| `C63_bytes` | - | propext, choice, sound |
| `C63_bytes_differ` | - | propext, choice, sound |
| `C63_disagree` | - | propext, sound |
| `C63_laws` | JcsLaws (proves ) | propext, choice, sound |
| `C63_sign_vc` | JcsLaws | propext, choice, sound |
| `C63_sign_vp` | JcsLaws | propext, choice, sound |
| `C63_value_order` | - | propext, choice, sound |
| `C63_verify_vc` | JcsLaws | propext, choice, sound |
| `C63_verify_vp` | JcsLaws | propext, choice, sound |
| `C64_honest_vc` | HashLaws, JcsLaws | propext, choice, sound |
| `C64_honest_vp` | HashLaws, JcsLaws | propext, choice, sound |
| `C64_vc` | HashLaws, JcsLaws | propext, choice, sound |
| `C64_vp` | HashLaws, JcsLaws | propext, choice, sound |
| `C65_account_error` | - | propext, choice, sound |
| `C65_did_error` | - | propext, choice, sound |
| `C65_from_keysecure` | - | propext, choice, sound |
| `C65_keysecure_error` | - | propext, choice, sound |
| `C65_proof_error` | - | propext, choice, sound |
| `C66_json_roundtrip` | NumLaws | propext, choice, sound |
| `C66_reads` | - | propext, choice, sound |
| `C66_stored_uri` | NumLaws | propext, choice, sound |
| `C66_text` | NumLaws | propext, choice, sound |
| `C67_account` | - | propext, choice, sound |
| `C67_agreement_build` | - | propext, choice, sound |
| `C67_agreement_decode` | - | propext, choice, sound |
| `C67_decrypt` | - | propext, choice, sound |
| `C67_generated` | EdLaws, DhLaw | propext, choice, sound |
| `C67_record` | AeadLaw | propext, choice, sound |
| `C67_verification_build` | - | propext, choice, sound |
| `C67_verification_decode` | - | propext, choice, sound |
| `C68_sign_vc` | - | propext, choice, sound |
| `C68_sign_vp` | - | propext, choice, sound |
| `C68_verify_vc` | JcsLaws | propext, choice, sound |
| `C68_verify_vp` | JcsLaws | propext, choice, sound |
| `C69_honest_vc` | HashLaws, EdLaws, NumLaws, JcsLaws | propext, choice, sound |
| `C69_honest_vp` | HashLaws, EdLaws, NumLaws, JcsLaws | propext, choice, sound |
| `C69_keys_stay` | - | propext |
| `C69_resolve` | HashLaws, EdLaws, NumLaws | propext, choice, sound |
| `C69_vc` | HashLaws, EdLaws, NumLaws, JcsLaws | propext, choice, sound |
| `C69_vp` | HashLaws, EdLaws, NumLaws, JcsLaws | propext, choice, sound |
| `C70_add` | - | propext, choice, sound |
| `C70_docs` | - | propext, choice, sound |
| `C70_one_signature` | HashLaws, JcsLaws | propext, choice, sound |
| `C70_resign` | EdLaws, JcsLaws | propext, choice, sound |
| `C70_sign_verify` | EdLaws, JcsLaws | propext, choice, sound |
| `C70_verify` | - | propext, choice, sound |
| `C71_create_vc` | JcsLaws | propext, choice, sound |
| `C71_create_vp` | JcsLaws | propext, choice, sound |
| `C71_roundtrip_vc` | EdLaws, JcsLaws | propext, choice, sound |
| `C71_roundtrip_vp` | EdLaws, JcsLaws | propext, choice, sound |
| `C71_verify_vc` | JcsLaws | propext, choice, sound |
| `C71_verify_vp` | JcsLaws | propext, choice, sound |
| `C72_decrypt` | - | propext, choice, sound |
| `C72_hashlink` | HashLaws | propext, choice, sound |
| `C72_hashlink_make` | HashLaws | propext, choice, sound |
| `C72_json_bytes` | - | propext, choice, sound |
| `C72_open` | - | propext, choice, sound |
| `C72_restore` | - | propext, choice, sound |
| `C72_restore_did` | - | propext, choice, sound |
| `C73_config` | JcsLaws | propext, choice, sound |
| `C73_full_false` | - (in a world with HashLaws, EdLaws, NumLaws, JcsLaws) | propext, choice, sound |
| `C73_received_vc` | HashLaws, JcsLaws | propext, choice, sound |
| `C73_received_vp` | HashLaws, JcsLaws | propext, choice, sound |
| `C73_sent_vc` | HashLaws, JcsLaws | propext, choice, sound |
| `C73_sent_vp` | HashLaws, JcsLaws | propext, choice, sound |
| `C73_vc_partial` | JcsLaws | propext, choice, sound |
| `C73_vp_partial` | JcsLaws | propext, choice, sound |
| `C74_did` | HashLaws | propext, choice, sound |
| `C74_hashlink` | HashLaws | propext, choice, sound |
| `C74_keys` | - | propext, choice, sound |
| `C74_signature_vc` | JcsLaws | propext, choice, sound |
| `C74_signature_vp` | JcsLaws | propext, choice, sound |
| `C74_uri` | HashLaws | propext, choice, sound |
| `C75_impersonation` | EdLaws, NumLaws, JcsLaws | propext, choice, sound |
| `C75_link` | HashLaws, NumLaws | propext, choice, sound |
| `C75_no_check` | - | propext, choice, sound |
| `C76_complete` | - | propext, choice, sound |
| `C76_errors` | - | propext, choice, sound |
| `C76_sound` | - | propext, choice, sound |
| `C76_variants` | - | propext, choice, sound |
| `C77_doc` | - | propext, choice, sound |
| `C77_skipped_doc` | - | propext, choice, sound |
| `C77_vc` | - | propext, choice, sound |
| `C77_vp` | - | propext, choice, sound |
| `C77_w3c_doc` | - | propext, choice, sound |
| `C77_w3c_vc` | - | propext, choice, sound |
| `C77_w3c_vp` | - | propext, choice, sound |
| `C78_cipher` | Actual | propext, sound |
| `C78_did` | Actual | propext, choice, sound |
| `C78_export` | PemLaw, Actual | propext, choice, sound |
| `C78_hashlink` | Actual | propext, choice, sound |
| `C78_laws` | Actual (proves HashLaws, AeadLaw) | propext, sound |
| `C78_one_cipher_text` | - | propext, choice, sound |
| `C78_restore` | Actual | propext, choice, sound |
| `C79_equation` | Ed25519Keys | propext, choice, sound |
| `C79_laws` | Ed25519Keys (proves EdLaws) | propext, choice, sound |
| `C79_neutral_key` | JcsLaws, Ed25519Keys, Rfc8032Verify | propext, choice, sound |
| `C79_roundtrip_vc` | NumLaws, JcsLaws, Ed25519Keys | propext, choice, sound |
| `C79_roundtrip_vp` | NumLaws, JcsLaws, Ed25519Keys | propext, choice, sound |
| `C79_second_half` | Ed25519Keys | propext, choice, sound |
| `C79_sizes` | JcsLaws, Ed25519Keys | propext, choice, sound |
| `C79_tamper_vc` | HashLaws, JcsLaws, Ed25519Keys | propext, choice, sound |
| `C79_tamper_vp` | HashLaws, JcsLaws, Ed25519Keys | propext, choice, sound |
| `C80_distinct` | Doubles | propext, choice, sound |
| `C80_documents` | Doubles | propext, choice, sound |
| `C80_everyday` | Doubles | propext, choice, sound |
| `C80_laws` | Doubles (proves NumLaws, JcsLaws) | propext, choice, sound |
| `C80_not_all` | Doubles | propext, choice, sound |
| `C80_read` | Doubles | propext, choice, sound |
| `C80_relay_vc` | HashLaws, Doubles, Ed25519Keys | propext, choice, sound |
| `C80_relay_vp` | HashLaws, Doubles, Ed25519Keys | propext, choice, sound |
| `C80_same` | Doubles | propext, choice, sound |
| `C80_sent_vc` | Doubles, Ed25519Keys | propext, choice, sound |
| `C80_sent_vp` | Doubles, Ed25519Keys | propext, choice, sound |
| `C80_shortest` | Doubles | propext, choice, sound |
| `C80_text` | Doubles | propext, choice, sound |
| `C81_agreement_record` | Actual, X25519Keys | propext, choice, sound |
| `C81_all` | Standard (proves HashLaws, EdLaws, PemLaw, DhLaw, AeadLaw, NumLaws, JcsLaws) | propext, choice, sound |
| `C81_chain` | Standard | propext, choice, sound |
| `C81_did` | Actual, Ed25519Keys, Pkcs8Keys | propext, choice, sound |
| `C81_distinct` | Pkcs8Keys | propext, choice, sound |
| `C81_exports` | Actual, Pkcs8Keys | propext, choice, sound |
| `C81_keys` | Ed25519Keys, X25519Keys | propext, choice, sound |
| `C81_laws` | Pkcs8Keys, X25519Keys (proves PemLaw, DhLaw) | propext, choice, sound |
| `C81_read` | Ed25519Keys, Pkcs8Keys | propext, choice, sound |
| `C81_record` | Actual, Pkcs8Keys | propext, choice, sound |
| `C81_stored` | AeadLaw, Ed25519Keys, Pkcs8Keys, X25519Keys | propext, choice, sound |
| `C81_write` | Pkcs8Keys | propext, choice, sound |
| `C82_count` | CrateBases | propext, choice, sound |
| `C82_decode` | CrateBases | propext, choice, sound |
| `C82_document` | CrateBases | propext, choice, sound |
| `C82_hashlink` | HashLaws | propext, choice, sound |
| `C82_key` | CrateBases | propext, choice, sound |
| `C82_letters` | CrateBases | propext, choice, sound |
| `C82_one` | CrateBases | propext, choice, sound |
| `C82_refused` | CrateBases | propext, choice, sound |
| `C82_sixty_four` | CrateBases | propext, choice, sound |
| `C82_vc` | EdLaws, NumLaws, JcsLaws, CrateBases | propext, choice, sound |
| `C82_vp` | EdLaws, NumLaws, JcsLaws, CrateBases | propext, choice, sound |
| `C83_dates` | ChronoDates | propext, choice, sound |
| `C83_interop` | EdLaws, NumLaws, JcsLaws, ChronoDates | propext, choice, sound |
| `C83_now` | ChronoDates | propext, choice, sound |
| `C83_options` | ChronoDates | propext, choice, sound |
| `C83_refused` | JcsLaws, ChronoDates | propext, choice, sound |
| `C83_rfc3339` | ChronoDates | propext, choice, sound |
| `C83_signed` | ChronoDates | propext, choice, sound |
| `C83_stamp` | ChronoDates | propext, choice, sound |
| `C84_addresses` | CrateAddrs | propext, choice, sound |
| `C84_append` | - | propext, choice, sound |
| `C84_injected` | - | propext, choice, sound |
| `C84_refused` | - | propext, choice, sound |
| `C84_spellings` | - | propext, choice, sound |
| `C84_unique` | - | propext, choice, sound |
| `C84_uri` | CrateAddrs | propext, choice, sound |
| `C85_agree` | AeadLaw, X25519Keys | propext, choice, sound |
| `C85_public` | X25519Keys | propext, choice, sound |
| `C85_restored` | AeadLaw, X25519Keys | propext, choice, sound |
| `C85_same` | AeadLaw, X25519Keys | propext, choice, sound |
| `C85_scalars` | X25519Keys | propext, choice, sound |
| `C86_canonical_vc` | Doubles | propext, choice, sound |
| `C86_canonical_vp` | Doubles | propext, choice, sound |
| `C86_equal` | Doubles | propext, choice, sound |
| `C86_number` | Doubles | propext, choice, sound |
| `C86_sent_vc` | Doubles | propext, choice, sound |
| `C86_sent_vp` | Doubles | propext, choice, sound |
| `C86_signed_vc` | Doubles | propext, choice, sound |
| `C86_signed_vp` | Doubles | propext, choice, sound |
| `C86_vc` | - | propext, choice, sound |
| `C86_vp` | - | propext, choice, sound |
| `C87_component` | - | propext, choice, sound |
| `C87_did` | - | propext, choice, sound |
| `C87_entries` | - | propext, choice, sound |
| `C87_escape` | - | propext, choice, sound |
| `C87_fragment` | HashLaws | propext, choice, sound |
| `C87_url` | - | propext, choice, sound |
| `C88_raw` | - | propext, choice, sound |
| `C88_refused` | - | propext, choice, sound |
| `C88_written` | - | propext, choice, sound |
| `C89_canonical_vc` | Doubles | propext, choice, sound |
| `C89_canonical_vp` | Doubles | propext, choice, sound |
| `C89_moves` | Doubles | propext, choice, sound |
| `C89_number` | Doubles | propext, choice, sound |
| `C89_relays_vc` | Doubles | propext, choice, sound |
| `C89_relays_vp` | Doubles | propext, choice, sound |
| `C89_vc` | Doubles | propext, choice, sound |
| `C89_vp` | Doubles | propext, choice, sound |
| `C90_any_cost` | Actual, Argon2Keys, Pkcs8Keys | propext, choice, sound |
| `C90_exports` | Actual, Argon2Keys, Pkcs8Keys | propext, choice, sound |
| `C90_file` | Actual, Ed25519Keys, Argon2Keys, Pkcs8Keys | propext, choice, sound |
| `C90_opens` | Actual, Argon2Keys | propext, choice, sound |
| `C90_restore` | Actual, Argon2Keys | propext, choice, sound |
| `C90_size` | Actual, Argon2Keys | propext, choice, sound |
| `C91_agreement` | NumLaws | propext, choice, sound |
| `C91_did` | NumLaws | propext, choice, sound |
| `C91_doc` | NumLaws | propext, choice, sound |
| `C91_read` | NumLaws | propext, choice, sound |
| `C91_read_vp` | NumLaws | propext, choice, sound |
| `C91_refused` | - | propext, choice, sound |
| `C91_signed` | JcsLaws | propext, choice, sound |
| `C91_signed_vp` | JcsLaws | propext, choice, sound |
| `C91_unchecked` | EdLaws, NumLaws, JcsLaws | propext, choice, sound |
| `C91_vc` | NumLaws | propext, choice, sound |
| `C91_vc_canonical` | JcsLaws | propext, choice, sound |
| `C91_vp` | NumLaws | propext, choice, sound |
| `C91_vp_canonical` | JcsLaws | propext, choice, sound |
| `C92_address` | Conforms | propext, choice, sound |
| `C92_did` | Conforms | propext, choice, sound |
| `C92_document` | Conforms | propext, choice, sound |
| `C92_entry` | Conforms | propext, choice, sound |
| `C92_export` | Conforms | propext, choice, sound |
| `C92_hashlink` | Conforms | propext, choice, sound |
| `C92_key` | Conforms | propext, choice, sound |
| `C92_laws` | Conforms (proves HashLaws, EdLaws, PemLaw, DhLaw, AeadLaw, NumLaws, JcsLaws) | propext, choice, sound |
| `C92_open` | - (the worlds are Conforms) | propext, choice, sound |
| `C92_pem` | Conforms | propext, choice, sound |
| `C92_read_vc` | Conforms | propext, choice, sound |
| `C92_read_vp` | Conforms | propext, choice, sound |
| `C92_received_vc` | Rfc8032Verify, Conforms | propext, choice, sound |
| `C92_received_vp` | Rfc8032Verify, Conforms | propext, choice, sound |
| `C92_sign_vc` | Conforms | propext, choice, sound |
| `C92_sign_vp` | Conforms | propext, choice, sound |
| `C92_stored` | Conforms | propext, choice, sound |
| `C92_texts_vc` | Conforms | propext, choice, sound |
| `C92_texts_vp` | Conforms | propext, choice, sound |
| `C92_three` | Conforms | propext, choice, sound |
| `C92_verify_vc` | Conforms | propext, choice, sound |
| `C92_verify_vp` | Conforms | propext, choice, sound |
| `C93_forged` | JcsLaws, Ed25519Keys, Rfc8032Verify | propext, choice, sound |
| `C93_own` | Ed25519Keys | propext, choice, sound |
| `C93_points` | - | propext, choice, sound |
| `C93_read` | Ed25519Keys | propext, choice, sound |
| `C93_rest` | Rfc8032Verify | propext, choice, sound |
| `C93_second_half` | Rfc8032Sound | propext, choice, sound |
| `C93_small` | - | propext, choice, sound |
| `C93_vc` | HashLaws, JcsLaws, Rfc8032Sound | propext, choice, sound |
| `C93_vp` | HashLaws, JcsLaws, Rfc8032Sound | propext, choice, sound |
| `C94_alias` | - | propext, choice, sound |
| `C94_any` | - | propext, choice, sound |
| `C94_own` | X25519Keys | propext, choice, sound |
| `C94_points` | - | propext, choice, sound |
| `C94_read` | X25519Keys | propext, choice, sound |
| `C94_restored` | AeadLaw, X25519Keys | propext, choice, sound |
| `C94_shared` | - | propext, choice, sound |
| `C94_twins` | - | propext, choice, sound |
| `C94_value` | - | propext, choice, sound |
| `C94_zero` | - | propext, choice, sound |
| `C95_broken` | JcsLaws, Ed25519Keys | propext, choice, sound |
| `C95_halves` | JcsLaws, Ed25519Keys | propext, choice, sound |
| `C95_leak` | JcsLaws, Ed25519Keys | propext, choice, sound |
| `C95_nonce` | JcsLaws, Ed25519Keys | propext, choice, sound |
| `C95_received` | JcsLaws, Rfc8032Verify | propext, choice, sound |
| `C95_repeats_kinds` | HashLaws, JcsLaws, Ed25519Keys | propext, choice, sound |
| `C95_repeats_vc` | HashLaws, JcsLaws, Ed25519Keys | propext, choice, sound |
| `C95_repeats_vp` | HashLaws, JcsLaws, Ed25519Keys | propext, choice, sound |
| `C95_signs_vc` | NumLaws, JcsLaws, Ed25519Keys | propext, choice, sound |
| `C95_signs_vp` | NumLaws, JcsLaws, Ed25519Keys | propext, choice, sound |
| `C95_two_keys` | JcsLaws, Ed25519Keys | propext, choice, sound |
| `C96_account` | Actual | propext, choice, sound |
| `C96_digits` | Actual, Pkcs8Keys, X25519Keys | propext, choice, sound |
| `C96_identity` | - | propext, choice, sound |
| `C96_known` | - | propext, choice, sound |
| `C96_pad` | - | propext, choice, sound |
| `C96_repeats` | - | propext, choice, sound |
| `C96_same` | - | propext, choice, sound |
| `C97_account` | Actual, Pkcs8Keys | propext, choice, sound |
| `C97_agreement` | Actual, X25519Keys | propext, choice, sound |
| `C97_changed` | - | propext, choice, sound |
| `C97_numbers` | - | propext, choice, sound |
| `C97_tag` | Actual | propext, choice, sound |
| `C98_accounts` | - | propext, choice, sound |
| `C98_bytes` | - | propext, choice, sound |
| `C98_iff` | - | propext, choice, sound |
| `C98_library` | Actual | propext, choice, sound |
| `C98_stored` | Actual, Pkcs8Keys | propext, choice, sound |
| `C99_few` | JcsLaws, Rfc8032Sound | propext, choice, sound |
| `C99_iff` | JcsLaws, Rfc8032Verify | propext, choice, sound |
| `C99_owner` | JcsLaws, Ed25519Keys, Rfc8032Verify | propext, choice, sound |
| `C99_small` | JcsLaws, Rfc8032Sound | propext, choice, sound |
<!-- axioms end -->
