import Verif.Concrete.XChaCha
import Verif.Props.Did
import Verif.Props.Hashlink

/-
C78: two of the laws assumed of dependencies hold of the algorithms in use, SHA-256, SHA-384, BLAKE3 and
XChaCha20-Poly1305 (`Verif/Concrete`), and what follows for DIDs, hashlinks and stored keys
(core/src/did/mod.rs:59-80, core/src/hashlink.rs:9-46, core/src/account/mod.rs:66-112).
-/

namespace Verif.Spec
open Verif

/-- The environment hashes and encrypts with the algorithms in use; everything else is open. -/
structure Actual (E : Env) : Prop where
  sha256 : E.sha256 = Sha2.sha256
  sha384 : E.sha384 = Sha2.sha384
  blake3 : E.blake3 = Blake3.blake3
  /-- keys of 32 and nonces of 24 bytes, no associated data -/
  enc : ∀ k n m c, E.aeadEnc k n m = .ok c ↔ k.length = 32 ∧ n.length = 24 ∧ XChaCha.encrypt k n [] m = c
  dec : ∀ k n c m, E.aeadDec k n c = .ok m ↔ k.length = 32 ∧ n.length = 24 ∧ XChaCha.decrypt k n [] c = some m

/-- The record is the encryption of a private key text under the password. -/
def Encrypts (E : Env) (pw : Str) (ks : KeySecure) (plain : Bytes) : Prop :=
  ∃ key nonce, E.kdf ks.kdfParams pw (utf8 ks.salt) = .ok key ∧ key.length = 32 ∧ IsHexAny nonce ks.nonce ∧
    nonce.length = 24 ∧ IsHexAny (XChaCha.encrypt key nonce [] plain) ks.cipherText

end Verif.Spec

namespace Verif.Props
open Verif Spec Hashlink

/-- C78: the laws assumed of hashing and encryption hold of the algorithms in use. -/
theorem C78_laws {E : Env} (A : Actual E) : E.HashLaws ∧ E.AeadLaw := by
  refine ⟨⟨fun b => ?_, fun b => ?_, fun b => ?_⟩, ?_⟩
  · rw [A.sha256]; exact Sha2.sha256_length b
  · rw [A.sha384]; exact Sha2.sha384_length b
  · rw [A.blake3]; exact Blake3.blake3_length b
  · intro k n p c h
    obtain ⟨h1, h2, h3⟩ := (A.enc k n p c).mp h
    exact (A.dec k n c p).mpr ⟨h1, h2, (XChaCha.decrypt_iff k n [] c p).mpr h3⟩

/-- C78: the cipher opens exactly what it made. -/
theorem C78_cipher {E : Env} (A : Actual E) (k n c m : Bytes) : E.aeadDec k n c = .ok m ↔ E.aeadEnc k n m = .ok c := by
  rw [A.dec, A.enc, XChaCha.decrypt_iff]

/-- C78: the DID of a key, with no assumption left. -/
theorem C78_did {E : Env} (A : Actual E) (d : DID E) : ∃ i hex payload, d.identity = .ok i ∧
    IsHex (Blake3.blake3 (Sha2.sha384 (E.edPubBytes d.account.pubkey))) hex ∧ hex.length = 64 ∧
    IsMultibase58 (utf8 hex) payload ∧ i.value = "did:prople:".toList ++ payload := by
  obtain ⟨i, hex, payload, h1, h2, h3, h4, h5, _⟩ := C01_identity_syntax (C78_laws A).1 d
  rw [A.blake3, A.sha384] at h2
  exact ⟨i, hex, payload, h1, h2, h3, h4, h5⟩

/-- C78: hashlinks, with no assumption left: every JSON text has one, and it is the only text accepted for it. -/
theorem C78_hashlink {E : Env} (A : Actual E) (v : JSONValue) :
    ∃ t, IsMultibase58 (0x1e :: 0x20 :: Blake3.blake3 (utf8 v.text)) t ∧
      generateFromJson E (.ok v) = .ok t ∧ ∀ t', verifyFromJson E (.ok v) t' = .ok () ↔ t' = t := by
  have H := (C78_laws A).1
  obtain ⟨t, ht, -⟩ := (C20_roundtrip H (.ok v)).1 v rfl
  refine ⟨t, ?_, ht, fun t' => ?_⟩
  · have := (C23_shape H v t).mp ht
    rw [A.blake3] at this
    exact this
  · rw [(C21_exact H v t').1, ht]
    exact ⟨fun h => by cases h; rfl, fun h => by rw [h]⟩

/-- C78: a stored key is restored exactly from a record that encrypts a PEM of it under the password. -/
theorem C78_restore {E : Env} (A : Actual E) (pw : Str) (ks : KeySecure) (a : Account E) :
    Account.fromKeysecure E pw ks = .ok a ↔ ∃ pem, Encrypts E pw ks (utf8 pem) ∧ E.edOfPem pem = .ok a.pair := by
  rw [C04_keysecure_accept_iff]
  refine exists_congr fun pem => and_congr_left fun _ => ?_
  constructor
  · rintro ⟨cipher, nonce, key, plain, h1, h2, h3, h4, h5, rfl⟩
    obtain ⟨k1, -, k3⟩ := (A.dec _ _ _ _).mp h5
    exact ⟨key, nonce, h4, k1, h2, h3, (XChaCha.decrypt_iff _ _ _ _ _).mp k3 ▸ h1⟩
  · rintro ⟨key, nonce, h1, h2, h3, h4, h5⟩
    exact ⟨_, nonce, key, _, h5, h3, h4, h1, (A.dec _ _ _ _).mpr ⟨h2, h4, (XChaCha.decrypt_iff _ _ _ _ _).mpr rfl⟩, rfl⟩

/-- C78: the export of a key encrypts it, restores it with the same password, and its cipher text has two characters
for each byte of the PEM and 32 more. -/
theorem C78_export {E : Env} (A : Actual E) (P : E.PemLaw) (a : Account E) (pub : Str) (r : ExportRandom) (pw : Str)
    (ks : KeySecure) (h : (Verification.Pairs.mk (E := E) pub a.privkey).buildKeysecure r pw = .ok ks) :
    Account.fromKeysecure E pw ks = .ok a ∧
      ∃ pem, Encrypts E pw ks (utf8 pem) ∧ ks.cipherText.length = 2 * (utf8 pem).length + 32 := by
  have h1 := (C03_keysecure_restore P (C78_laws A).2 a pub r pw ks h).1
  obtain ⟨pem, h2, -⟩ := (C78_restore A pw ks a).mp h1
  refine ⟨h1, pem, h2, ?_⟩
  obtain ⟨key, nonce, -, -, -, -, h3⟩ := h2
  have := congrArg List.length (isHex_iff.mp h3)
  rw [List.length_map, hexEncode_length, XChaCha.encrypt_length] at this
  omega

/-- C78: one cipher text for one secret: two records with the same salt, cost parameters and nonce that open to the
same text under a password have the same cipher text, up to the case of its letters. -/
theorem C78_one_cipher_text {E : Env} (pw : Str) (ks ks' : KeySecure) (plain : Bytes)
    (h : Encrypts E pw ks plain) (h' : Encrypts E pw ks' plain) (hp : ks.kdfParams = ks'.kdfParams)
    (hs : ks.salt = ks'.salt) (hn : ks.nonce.map lowerHex = ks'.nonce.map lowerHex) :
    ks.cipherText.map lowerHex = ks'.cipherText.map lowerHex := by
  obtain ⟨key, nonce, h1, -, h2, -, h3⟩ := h
  obtain ⟨key', nonce', h1', -, h2', -, h3'⟩ := h'
  rw [hp, hs, h1'] at h1
  cases h1
  unfold IsHexAny at *
  rw [isHex_iff] at h2 h3 h2' h3'
  rw [hn, h2'] at h2
  rw [hexEncode_injective h2] at h3'
  rw [h3, h3']

/-! ### A world with these algorithms, and values in it -/

/-- The toy world with the algorithms in use, and SHA-256 of password and salt in place of Argon2. -/
def real : Env :=
  { Toy.env with
    sha256 := Sha2.sha256
    sha384 := Sha2.sha384
    blake3 := Blake3.blake3
    kdf := fun p pw salt =>
      if p.outputLen = 32 then .ok (Sha2.sha256 (utf8Encode pw ++ 0xff :: salt)) else .error "bad params".toList
    aeadEnc := fun k n m =>
      if k.length = 32 ∧ n.length = 24 then .ok (XChaCha.encrypt k n [] m) else .error "aead::Error".toList
    aeadDec := fun k n c =>
      if k.length = 32 ∧ n.length = 24 then
        match XChaCha.decrypt k n [] c with
        | some m => .ok m
        | none => .error "aead::Error".toList
      else .error "aead::Error".toList }

theorem real_actual : Actual real where
  sha256 := rfl
  sha384 := rfl
  blake3 := rfl
  enc k n m c := by
    show (if k.length = 32 ∧ n.length = 24 then Except.ok (XChaCha.encrypt k n [] m) else .error "aead::Error".toList) =
      .ok c ↔ _
    by_cases h : k.length = 32 ∧ n.length = 24
    · rw [if_pos h]
      exact ⟨fun e => ⟨h.1, h.2, Except.ok.inj e⟩, fun e => congrArg Except.ok e.2.2⟩
    · rw [if_neg h]
      exact ⟨fun e => (by cases e), fun e => absurd ⟨e.1, e.2.1⟩ h⟩
  dec k n c m := by
    show (if k.length = 32 ∧ n.length = 24 then (match XChaCha.decrypt k n [] c with
        | some m => Except.ok m
        | none => .error "aead::Error".toList)
      else .error "aead::Error".toList) = .ok m ↔ _
    by_cases h : k.length = 32 ∧ n.length = 24
    · rw [if_pos h]
      cases XChaCha.decrypt k n [] c with
      | none => exact ⟨fun e => (by cases e), fun e => (by cases e.2.2)⟩
      | some x => exact ⟨fun e => ⟨h.1, h.2, by cases e; rfl⟩, fun e => (by cases e.2.2; rfl)⟩
    · rw [if_neg h]
      exact ⟨fun e => (by cases e), fun e => absurd ⟨e.1, e.2.1⟩ h⟩

theorem real_pem : real.PemLaw := Toy.pemLaw

/-- The hashlink of `{}`, as computed by a separate short Python script for BLAKE3, multihash and base58. -/
example : generateFromJson real (.ok ⟨"{}".toList⟩) = .ok "zgW568o1jaKvWLM6KtSdYb1WLEtVnFv85W3HjXGG37xu7Ut".toList := by
  decide +kernel

/-- The DID of the (toy) public key of one byte, as computed by the same script (SHA-384 from Python's `hashlib`). -/
example : (DID.mk (Account.new real (0xab : UInt8))).identity.map (·.value) =
    .ok "did:prople:z24uAW8jjAiwRsqTkS1G15MdP45jSYWj8XbHtvd76KwXjdswsZNdxUA8YRx4u3APiex26uP3otFyB4zxGDwaWkBZN".toList := by
  decide +kernel

/-- Salt and nonce for the next example. -/
def realRandom : ExportRandom := ⟨"salt".toList, List.replicate 24 7, by decide⟩

/-- `C78_one_cipher_text`: two records of the same bytes whose texts differ in the case of a letter. -/
example : ∃ ks ks' : KeySecure, ks.cipherText ≠ ks'.cipherText ∧ Encrypts real "pw".toList ks [1, 2, 3] ∧
    Encrypts real "pw".toList ks' [1, 2, 3] ∧ ks.kdfParams = ks'.kdfParams ∧ ks.salt = ks'.salt ∧ ks.nonce = ks'.nonce := by
  let key := Sha2.sha256 (utf8Encode "pw".toList ++ 0xff :: utf8 "salt".toList)
  let text := hexEncode (XChaCha.encrypt key (List.replicate 24 7) [] [1, 2, 3])
  refine ⟨⟨text, hexEncode (List.replicate 24 7), ⟨1, 1, 1, 32⟩, "salt".toList⟩,
    ⟨text.map Char.toUpper, hexEncode (List.replicate 24 7), ⟨1, 1, 1, 32⟩, "salt".toList⟩, by decide +kernel,
    ⟨key, List.replicate 24 7, rfl, Sha2.sha256_length _, (hexDecode_iff _ _).mp (by decide +kernel), rfl, (hexDecode_iff _ _).mp (by decide +kernel)⟩,
    ⟨key, List.replicate 24 7, rfl, Sha2.sha256_length _, (hexDecode_iff _ _).mp (by decide +kernel), rfl, (hexDecode_iff _ _).mp (by decide +kernel)⟩,
    rfl, rfl, rfl⟩

/-- The hypotheses of `C78_export` hold: the export succeeds and is restored. -/
example : ∃ ks, (Verification.Pairs.mk (E := real) [] (Account.new real (0xab : UInt8)).privkey).buildKeysecure realRandom
      "pw".toList = .ok ks ∧ Account.fromKeysecure real "pw".toList ks = .ok (Account.new real (0xab : UInt8)) ∧
      ks.cipherText.length = 36 := by
  have h : ∃ ks, (Verification.Pairs.mk (E := real) [] (Account.new real (0xab : UInt8)).privkey).buildKeysecure realRandom
      "pw".toList = .ok ks ∧ ks.cipherText.length = 36 := by
    have d : (match (Verification.Pairs.mk (E := real) [] (Account.new real (0xab : UInt8)).privkey).buildKeysecure
        realRandom "pw".toList with
      | .ok ks => decide (ks.cipherText.length = 36)
      | .error _ => false) = true := by decide +kernel
    revert d
    cases (Verification.Pairs.mk (E := real) [] (Account.new real (0xab : UInt8)).privkey).buildKeysecure
      realRandom "pw".toList with
    | ok ks => exact fun h => ⟨ks, rfl, of_decide_eq_true h⟩
    | error e => exact fun h => nomatch h
  obtain ⟨ks, h1, h2⟩ := h
  exact ⟨ks, h1, (C78_export real_actual real_pem _ _ _ _ _ h1).1, h2⟩

end Verif.Props
