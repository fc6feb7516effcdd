import Verif.Props.Public
import Verif.Props.Chain

/-
C67: key pairs and stored keys, core/src/keys/verification.rs, agreement.rs, secure.rs; C14: the exported secrets
against the published entries.
-/

namespace Verif.Props
open Verif Spec

/-! ### C67 -/

/-- C67: the public key of a verification pair decodes to `k` exactly if its text is a multibase text of a hex text of
`k`; there is one error. -/
theorem C67_verification_decode {E : Env} (p : Verification.Pairs E) :
    (∀ k, p.decodePubKey = .ok k ↔ ∃ raw, HoldsHex E p.pubKey raw ∧ E.edPubOfBytes raw = some k) ∧
    ∀ e, p.decodePubKey = .error e → e = .decodePublicKeyError := by
  obtain ⟨res, e, h⟩ := decode_chain (E := E) (ε := Verification.Error) p.pubKey E.edPubOfBytes id
    .decodePublicKeyError .decodePublicKeyError .decodePublicKeyError
  have e' : p.decodePubKey = res := by
    rw [← e]
    unfold Verification.Pairs.decodePubKey
    cases E.mbDecode p.pubKey with
    | none => rfl
    | some q =>
      simp only
      cases utf8Decode q.2 with
      | none => rfl
      | some x =>
        simp only
        cases (hexDecode x).bind E.edPubOfBytes <;> rfl
  rw [e']
  rcases h with ⟨k', raw, h1, h2, rfl⟩ | ⟨h1, h2⟩
  · refine ⟨fun k => ⟨fun g => ?_, ?_⟩, fun _ g => nomatch g⟩
    · cases g; exact ⟨raw, h1, h2⟩
    · rintro ⟨raw', g1, g2⟩
      rw [h1.unique g1, g2] at h2; cases h2; rfl
  · refine ⟨fun k => ⟨fun g => ?_, ?_⟩, fun _ g => ?_⟩
    · rcases h2 with rfl | rfl | rfl <;> cases g
    · rintro ⟨raw', g1, g2⟩; exact absurd g2 (h1 _ _ g1)
    · rcases h2 with rfl | rfl | rfl <;> cases g <;> rfl

/-- C67: the same of agreement pairs. -/
theorem C67_agreement_decode {E : Env} (p : Agreement.Pairs E) :
    (∀ k, p.decodePublicKey = .ok k ↔ ∃ raw, HoldsHex E p.pubKey raw ∧ E.dhPubOfBytes raw = some k) ∧
    ∀ e, p.decodePublicKey = .error e → e = .decodePublicKeyError := by
  obtain ⟨res, e, h⟩ := decode_chain (E := E) (ε := Agreement.Error) p.pubKey E.dhPubOfBytes id
    .decodePublicKeyError .decodePublicKeyError .decodePublicKeyError
  have e' : p.decodePublicKey = res := by
    rw [← e]
    unfold Agreement.Pairs.decodePublicKey
    cases E.mbDecode p.pubKey with
    | none => rfl
    | some q =>
      simp only
      cases utf8Decode q.2 with
      | none => rfl
      | some x =>
        simp only
        cases (hexDecode x).bind E.dhPubOfBytes <;> rfl
  rw [e']
  rcases h with ⟨k', raw, h1, h2, rfl⟩ | ⟨h1, h2⟩
  · refine ⟨fun k => ⟨fun g => ?_, ?_⟩, fun _ g => nomatch g⟩
    · cases g; exact ⟨raw, h1, h2⟩
    · rintro ⟨raw', g1, g2⟩
      rw [h1.unique g1, g2] at h2; cases h2; rfl
  · refine ⟨fun k => ⟨fun g => ?_, ?_⟩, fun _ g => ?_⟩
    · rcases h2 with rfl | rfl | rfl <;> cases g
    · rintro ⟨raw', g1, g2⟩; exact absurd g2 (h1 _ _ g1)
    · rcases h2 with rfl | rfl | rfl <;> cases g <;> rfl

/-- C67: a freshly generated pair holds the key text of its own public key and decodes to it. -/
theorem C67_generated {E : Env} (Le : E.EdLaws) (Ld : E.DhLaw) (s : E.EdSeed) (t : E.DhSeed) :
    (Verification.Key.new E s).generate.decodePubKey = .ok (E.edPub (E.edGenerate s)) ∧
    (Agreement.Key.new E t).generate.decodePublicKey = .ok (E.dhPub (E.dhGenerate t)) ∧
    IsKeyText (E.edPubBytes (E.edPub (E.edGenerate s))) (Verification.Key.new E s).generate.pubKey ∧
    IsKeyText (E.dhPubBytes (E.dhPub (E.dhGenerate t))) (Agreement.Key.new E t).generate.pubKey := by
  have k1 : IsKeyText (E.edPubBytes (E.edPub (E.edGenerate s))) (Verification.Key.new E s).generate.pubKey :=
    keyText _
  have k2 : IsKeyText (E.dhPubBytes (E.dhPub (E.dhGenerate t))) (Agreement.Key.new E t).generate.pubKey :=
    keyText _
  exact ⟨((C67_verification_decode _).1 _).mpr ⟨_, isKeyText_holds k1, Le.pub_bytes _⟩,
    ((C67_agreement_decode _).1 _).mpr ⟨_, isKeyText_holds k2, Ld _⟩, k1, k2⟩

/-- `ks` decrypts to `plain` under the password. -/
def Decrypts (E : Env) (pw : Str) (ks : KeySecure) (plain : Bytes) : Prop :=
  ∃ cipher nonce key, IsHexAny cipher ks.cipherText ∧ IsHexAny nonce ks.nonce ∧ nonce.length = 24 ∧
    E.kdf ks.kdfParams pw (utf8 ks.salt) = .ok key ∧ E.aeadDec key nonce cipher = .ok plain

theorem decrypt_iff {E : Env} (pw : Str) (ks : KeySecure) (plain : Bytes) :
    ks.decrypt E pw = .ok plain ↔ Decrypts E pw ks plain := by
  unfold KeySecure.decrypt Decrypts
  simp only [← hexDecode_iff, utf8_eq]
  cases hexDecode ks.cipherText with
  | none => simp
  | some c =>
    cases E.kdf ks.kdfParams pw (utf8Encode ks.salt) with
    | error m => simp [bind, Except.bind]
    | ok k =>
      cases hexDecode ks.nonce with
      | none => simp [bind, Except.bind]
      | some n =>
        simp only [bind, Except.bind]
        by_cases hl : n.length = 24
        · simp [hl]
        · simp [hl]

/-- C67: `decrypt_verification` and `decrypt_agreement` return exactly the bytes their own record decrypts to, and
every failure is a `DecryptError`. -/
theorem C67_decrypt {E : Env} (p : PrivateKeyPairs) (pw : Str) :
    (∀ b, p.decryptVerification E pw = .ok b ↔ Decrypts E pw p.verification b) ∧
    (∀ b, p.decryptAgreement E pw = .ok b ↔ Decrypts E pw p.aggrement b) ∧
    (∀ e, p.decryptVerification E pw = .error e → ∃ m, e = .decryptError m) ∧
    ∀ e, p.decryptAgreement E pw = .error e → ∃ m, e = .decryptError m := by
  unfold PrivateKeyPairs.decryptVerification PrivateKeyPairs.decryptAgreement
  simp only [← decrypt_iff]
  refine ⟨?_, ?_, ?_, ?_⟩
  · cases p.verification.decrypt E pw <;> simp
  · cases p.aggrement.decrypt E pw <;> simp
  · cases p.verification.decrypt E pw <;> simp
  · cases p.aggrement.decrypt E pw <;> simp

/-- C67: the account reader and `decrypt_verification` agree: a verification record is an account exactly if it
decrypts to the UTF-8 text of a PEM. -/
theorem C67_account {E : Env} (p : PrivateKeyPairs) (pw : Str) (a : Account E) :
    Account.fromKeysecure E pw p.verification = .ok a ↔
      ∃ pem, p.decryptVerification E pw = .ok (utf8 pem) ∧ E.edOfPem pem = .ok a.pair := by
  rw [C04_keysecure_accept_iff]
  simp only [(C67_decrypt p pw).1]
  constructor
  · rintro ⟨pem, ⟨c, n, k, _, h1, h2, h3, h4, h5, rfl⟩, h⟩
    exact ⟨pem, ⟨c, n, k, h1, h2, h3, h4, h5⟩, h⟩
  · rintro ⟨pem, ⟨c, n, k, h1, h2, h3, h4, h5⟩, h⟩
    exact ⟨pem, ⟨c, n, k, _, h1, h2, h3, h4, h5, rfl⟩, h⟩

/-- C67: `build_keysecure` of a verification pair: the record of its PEM text, or `BuildKeySecureError`. -/
theorem C67_verification_build {E : Env} (r : ExportRandom) (p : Verification.Pairs E) (pw : Str) :
    (∀ ks, p.buildKeysecure r pw = .ok ks ↔ ∃ pem, E.edPem p.privKey = .ok pem ∧ IsRecord E r pw (utf8 pem) ks) ∧
    ∀ e, p.buildKeysecure r pw = .error e → e = .buildKeySecureError := by
  unfold Verification.Pairs.buildKeysecure
  cases E.edPem p.privKey with
  | error m => simp
  | ok pem =>
    simp only [Except.ok.injEq, exists_eq_left', ← export_iff, utf8_eq]
    cases exportKeySecure E r (utf8Encode pem) pw <;> simp

/-- C67: the same of an agreement pair, with the hex text of its secret. -/
theorem C67_agreement_build {E : Env} (r : ExportRandom) (p : Agreement.Pairs E) (pw : Str) :
    (∀ ks, p.buildKeysecure r pw = .ok ks ↔ ∃ hex, IsHex (E.dhSecret p.privKey) hex ∧ IsRecord E r pw (utf8 hex) ks) ∧
    ∀ e, p.buildKeysecure r pw = .error e → e = .buildKeySecureError := by
  unfold Agreement.Pairs.buildKeysecure
  simp only [isHex_iff, exists_eq_left, ← export_iff, utf8_eq]
  cases exportKeySecure E r (utf8Encode (hexEncode (E.dhSecret p.privKey))) pw <;> simp

/-- C67: a record decrypts to exactly one plaintext, and a record made from `plain` to `plain`. -/
theorem C67_record {E : Env} (A : E.AeadLaw) {r : ExportRandom} {pw : Str} {plain b : Bytes} {ks : KeySecure}
    (h : IsRecord E r pw plain ks) : Decrypts E pw ks b ↔ b = plain := by
  have h' := export_decrypt A ((export_iff r pw plain ks).mpr h)
  rw [← decrypt_iff, h']
  simp [eq_comm]

-- `C67_record`: a record made and decrypted; the same record under another password, and with a nonce of the wrong size
example : ∃ ks, (Verification.Key.new Toy.env (7 : UInt8)).generate.buildKeysecure toyRandom "pw".toList = .ok ks ∧
    (∃ b, (PrivateKeyPairs.mk ks ks).decryptVerification Toy.env "pw".toList = .ok b) ∧
    (∃ m, (PrivateKeyPairs.mk ks ks).decryptAgreement Toy.env "other".toList = .error (.decryptError m)) ∧
    ∃ m, (PrivateKeyPairs.mk { ks with nonce := "00".toList } ks).decryptVerification Toy.env "pw".toList =
      .error (.decryptError m) :=
  ⟨_, rfl, ⟨_, rfl⟩, ⟨_, rfl⟩, ⟨_, rfl⟩⟩

-- pairs whose text is not a key text
example : (Verification.Pairs.mk (E := Toy.env) "z???".toList (7 : UInt8)).decodePubKey = .error .decodePublicKeyError ∧
    (Agreement.Pairs.mk (E := Toy.env) [] (7 : UInt8)).decodePublicKey = .error .decodePublicKeyError :=
  ⟨rfl, rfl⟩

/-! ### C14 -/

/-- An exported slot against the entries of the document: the verification record decrypts to the PEM of a key pair
whose public key the first entry holds, the agreement record to the hex of the secret of a key pair whose public key
the second entry holds. -/
def SlotPublished (E : Env) (pw : Str) (x : Option PrivateKeyPairs) (l : Option (List Primary)) : Prop :=
  (x = none ∧ l = none) ∨
  ∃ p e1 e2 pem hex kp dh, x = some p ∧ l = some [e1, e2] ∧
    p.decryptVerification E pw = .ok (utf8 pem) ∧ E.edOfPem pem = .ok kp ∧
    e1.decodePubKey E = .ok (.edDSA (E.edPub kp)) ∧
    p.decryptAgreement E pw = .ok (utf8 hex) ∧ IsHex (E.dhSecret dh) hex ∧
    e2.decodePubKey E = .ok (.ecdh (E.dhPub dh))

/-- C14: in both slots the exported secrets are those of the public keys `to_doc()` publishes. -/
theorem C14_published {E : Env} (Le : E.EdLaws) (Ld : E.DhLaw) (P : E.PemLaw) (A : E.AeadLaw) (v : Str)
    (ops : List (IdOp E)) (r : PrivateKeysRandom) (pw : Str) (out : IdentityPrivateKeyPairs)
    (h : (idRun v ops).buildPrivateKeys r pw = .ok out) :
    out.identity = (idRun v ops).toDoc.id ∧
    SlotPublished E pw out.authentication (idRun v ops).toDoc.authentication ∧
    SlotPublished E pw out.assertion (idRun v ops).toDoc.assertion := by
  obtain ⟨h1, h2, h3⟩ := C14_private_keys A v ops r pw out h
  obtain ⟨a1, _, _, _, a5, a6, _⟩ := C12_document v ops
  have slot : ∀ {s : Option (MethodSeed E)} {x : Option PrivateKeyPairs} {l : Option (List Primary)} {idV idA : Str},
      SlotDecrypts E pw s x → EntriesIs E v idV idA s l → SlotPublished E pw x l := by
    intro s x l idV idA hx hl
    cases s with
    | none => exact .inl ⟨hx, hl⟩
    | some s =>
      obtain ⟨p, pem, hex, b1, b2, b3, b4, b5⟩ := hx
      obtain ⟨l', e, ⟨kv, ka, el, k1, k2⟩⟩ := hl
      subst el
      refine .inr ⟨p, _, _, pem, hex, E.edGenerate s.ed, E.dhGenerate s.dh, b1, e, b4, P _ _ b2, ?_, b5, b3, ?_⟩
      · exact (C15_eddsa _ _).mpr ⟨rfl, _, isKeyText_holds k1, Le.pub_bytes _⟩
      · exact (C15_ecdh _ _).mpr ⟨rfl, _, isKeyText_holds k2, Ld _⟩
  exact ⟨h1.trans a1.symm, slot h2 a5, slot h3 a6⟩

/-- `C14_published`: both sides are there for the sample history. -/
example : ∃ out, (idRun "did:x".toList toyOps).buildPrivateKeys ⟨toyRandom, toyRandom, toyRandom, toyRandom⟩
    "pw".toList = .ok out ∧ out.authentication.isSome ∧
    (idRun "did:x".toList toyOps).toDoc.authentication.isSome := ⟨_, rfl, rfl, rfl⟩

end Verif.Props
