import Verif.Concrete.Argon2
import Verif.Props.Pem

/-
C90: stored keys by RFC 9106 (core/src/account/mod.rs:71-107, core/src/keys/secure.rs, core/src/keys/verification.rs,
core/src/keys/agreement.rs; `Verif/Concrete/Argon2.lean`).
-/

namespace Verif.Spec
open Verif

/-- Cost parameters in the range of RFC 9106, section 3.1. -/
structure CostsOk (p : KdfParams) : Prop where
  lanes : 1 ≤ p.pCost ∧ p.pCost < 2 ^ 24
  memory : 8 * p.pCost ≤ p.mCost ∧ p.mCost < 2 ^ 32
  passes : 1 ≤ p.tCost ∧ p.tCost < 2 ^ 32
  output : 4 ≤ p.outputLen ∧ p.outputLen < 2 ^ 32

/-- Salts have at least eight bytes, as in the reference implementation and the Rust crate. -/
structure InputsOk (pw : Str) (salt : Bytes) : Prop where
  salt : 8 ≤ salt.length ∧ salt.length < 2 ^ 32
  password : (utf8 pw).length < 2 ^ 32

/-- Keys are derived with Argon2id, version 1.3, without secret and associated data. -/
def Argon2Keys (E : Env) : Prop := ∀ p pw salt key, E.kdf p pw salt = .ok key ↔
  CostsOk p ∧ InputsOk pw salt ∧ Argon2.argon2id p.mCost p.tCost p.pCost p.outputLen (utf8 pw) salt [] [] = key

/-- What a stored key is, by the standards alone: the record holds, in hex, a nonce of 24 bytes and the XChaCha20-Poly1305
cipher text of `plain` under the 32 bytes Argon2id makes of password and salt at the costs written in the record. -/
structure OpensTo (pw : Str) (ks : KeySecure) (plain : Bytes) : Prop where
  costs : CostsOk ks.kdfParams
  inputs : InputsOk pw (utf8 ks.salt)
  size : ks.kdfParams.outputLen = 32
  cipher : ∃ nonce, nonce.length = 24 ∧ IsHexAny nonce ks.nonce ∧ IsHexAny (XChaCha.encrypt
    (Argon2.argon2id ks.kdfParams.mCost ks.kdfParams.tCost ks.kdfParams.pCost 32 (utf8 pw) (utf8 ks.salt) [] [])
    nonce [] plain) ks.cipherText

end Verif.Spec

namespace Verif.Props
open Verif Spec

variable {E : Env} {seed : E.EdKP → Bytes}

theorem decrypts_of_encrypts (H : Actual E) {pw : Str} {ks : KeySecure} {b : Bytes} (h : Encrypts E pw ks b) : Decrypts E pw ks b := by
  obtain ⟨key, nonce, h1, h2, h3, h4, h5⟩ := h
  exact ⟨_, nonce, key, h5, h3, h4, h1, (H.dec _ _ _ _).mpr ⟨h2, h4, (XChaCha.decrypt_iff _ _ _ _ _).mpr rfl⟩⟩

theorem hexAny_of_hex {b : Bytes} {t : Str} (h : IsHex b t) : IsHexAny b t := by
  rw [← hexDecode_iff, isHex_iff.mp h]
  exact hexDecode_encode b

theorem encrypts_iff (K : Argon2Keys E) (pw : Str) (ks : KeySecure) (b : Bytes) : Encrypts E pw ks b ↔ OpensTo pw ks b := by
  constructor
  · rintro ⟨key, nonce, h1, h2, h3, h4, h5⟩
    obtain ⟨a1, a2, rfl⟩ := (K _ _ _ _).mp h1
    rw [Argon2.argon2id_length] at h2
    rw [h2] at h5
    exact ⟨a1, a2, h2, nonce, h4, h3, h5⟩
  · rintro ⟨a1, a2, a3, nonce, h1, h2, h3⟩
    refine ⟨_, nonce, (K _ _ _ _).mpr ⟨a1, a2, rfl⟩, ?_, h2, h1, ?_⟩
    · rw [Argon2.argon2id_length]; exact a3
    · rw [a3]; exact h3

/-- C90: what the private keys of an export decrypt to. -/
theorem C90_opens (K : Argon2Keys E) (H : Actual E) (p : PrivateKeyPairs) (pw : Str) (b : Bytes) :
    (p.decryptVerification E pw = .ok b ↔ OpensTo pw p.verification b) ∧
    (p.decryptAgreement E pw = .ok b ↔ OpensTo pw p.aggrement b) := by
  obtain ⟨h1, h2, -⟩ := C67_decrypt p pw (E := E)
  have key : ∀ ks, Decrypts E pw ks b ↔ OpensTo pw ks b := fun ks =>
    (Iff.intro (encrypts_of_decrypts H) (decrypts_of_encrypts H)).trans (encrypts_iff K pw ks b)
  exact ⟨(h1 b).trans (key _), (h2 b).trans (key _)⟩

/-- C90: an account is restored exactly from such a record of a private key text. -/
theorem C90_restore (K : Argon2Keys E) (H : Actual E) (pw : Str) (ks : KeySecure) (a : Account E) :
    Account.fromKeysecure E pw ks = .ok a ↔ ∃ pem, OpensTo pw ks (utf8 pem) ∧ E.edOfPem pem = .ok a.pair := by
  rw [C78_restore H]
  simp only [encrypts_iff K]

/-- C90: whoever made the record: if it is one of a PEM text of an Ed25519 key, the account has that key. -/
theorem C90_file (K : Argon2Keys E) (H : Actual E) (A : Pkcs8Keys E seed) (S : Ed25519Keys E seed) (pw : Str) (ks : KeySecure)
    (pem : Str) (s : Bytes) (ho : OpensTo pw ks (utf8 pem)) (hp : IsKeyPem pem s) :
    ∃ a, Account.fromKeysecure E pw ks = .ok a ∧ E.edPubBytes a.pubkey = Ed25519.publicKey s ∧
      ∀ m, a.sign m = Ed25519.sign s m := by
  obtain ⟨a, -, h2, h3, h4, -⟩ := C81_read A S pem s hp
  subst h2
  exact ⟨a, (C81_record A H a pw).1 ks pem ((encrypts_iff K pw ks _).mpr ho) hp, h3, h4⟩

/-- C90: a record that asks for a key of another size is refused, whatever the password. -/
theorem C90_size (K : Argon2Keys E) (H : Actual E) (ks : KeySecure) (h : ks.kdfParams.outputLen ≠ 32) (pw : Str) :
    (∃ e, Account.fromKeysecure E pw ks = .error e) ∧
      (∀ p : PrivateKeyPairs, p.verification = ks → ∃ e, p.decryptVerification E pw = .error e) ∧
      ∀ p : PrivateKeyPairs, p.aggrement = ks → ∃ e, p.decryptAgreement E pw = .error e := by
  refine ⟨?_, ?_, ?_⟩
  · cases hr : Account.fromKeysecure E pw ks with
    | error e => exact ⟨e, rfl⟩
    | ok a =>
      obtain ⟨pem, ho, -⟩ := (C90_restore K H pw ks a).mp hr
      exact absurd ho.size h
  · rintro p rfl
    cases hr : p.decryptVerification E pw with
    | error e => exact ⟨e, rfl⟩
    | ok b => exact absurd ((C90_opens K H p pw b).1.mp hr).size h
  · rintro p rfl
    cases hr : p.decryptAgreement E pw with
    | error e => exact ⟨e, rfl⟩
    | ok b => exact absurd ((C90_opens K H p pw b).2.mp hr).size h

/-- C90: no cost is too low (or too high): for every account, password, salt and nonce there is at every cost a record from
which the account is restored. -/
theorem C90_any_cost (K : Argon2Keys E) (H : Actual E) (A : Pkcs8Keys E seed) (a : Account E) (pw : Str) (costs : KdfParams)
    (hc : CostsOk costs) (h32 : costs.outputLen = 32) (salt : Str) (hi : InputsOk pw (utf8 salt)) (nonce : Bytes)
    (hn : nonce.length = 24) :
    ∃ ks, ks.kdfParams = costs ∧ ks.salt = salt ∧ IsHex nonce ks.nonce ∧ Account.fromKeysecure E pw ks = .ok a := by
  obtain ⟨pem, -, hp, -⟩ := C81_write A a
  obtain ⟨n', h1⟩ : ∃ t, IsHex nonce t := ⟨_, hexEncode_spec _⟩
  obtain ⟨c', h2⟩ : ∃ t, IsHex (XChaCha.encrypt (Argon2.argon2id costs.mCost costs.tCost costs.pCost 32 (utf8 pw) (utf8 salt) [] [])
    nonce [] (utf8 pem)) t := ⟨_, hexEncode_spec _⟩
  refine ⟨⟨c', n', costs, salt⟩, rfl, rfl, h1, ?_⟩
  refine (C81_record A H a pw).1 _ pem ((encrypts_iff K pw _ _).mpr ⟨hc, hi, h32, nonce, hn, ?_, ?_⟩) hp
  · exact hexAny_of_hex h1
  · exact hexAny_of_hex h2

theorem derives_iff (K : Argon2Keys E) (pw : Str) (r : ExportRandom) : Derives E pw r ↔
    CostsOk E.kdfDefault ∧ E.kdfDefault.outputLen = 32 ∧ InputsOk pw (utf8 r.salt) := by
  constructor
  · rintro ⟨key, h1, h2⟩
    obtain ⟨a, b, rfl⟩ := (K _ _ _ _).mp h1
    rw [Argon2.argon2id_length] at h2
    exact ⟨a, h2, b⟩
  · rintro ⟨a, b, c⟩
    exact ⟨_, (K _ _ _ _).mpr ⟨a, c, rfl⟩, by rw [Argon2.argon2id_length]; exact b⟩

/-- C90: when an identity can be exported: the default costs are in range and ask for 32 bytes, and each salt drawn has eight
bytes. -/
theorem C90_exports (K : Argon2Keys E) (H : Actual E) (A : Pkcs8Keys E seed) (v : Str) (ops : List (IdOp E)) (r : PrivateKeysRandom)
    (pw : Str) : (∃ out, (idRun v ops).buildPrivateKeys r pw = .ok out) ↔
      (firstAuth ops ≠ none ∨ firstAssertion ops ≠ none → CostsOk E.kdfDefault ∧ E.kdfDefault.outputLen = 32) ∧
      (firstAuth ops ≠ none → InputsOk pw (utf8 r.authVerification.salt) ∧ InputsOk pw (utf8 r.authAgreement.salt)) ∧
      (firstAssertion ops ≠ none → InputsOk pw (utf8 r.assertionVerification.salt) ∧ InputsOk pw (utf8 r.assertionAgreement.salt)) := by
  rw [C81_exports A H]
  simp only [derives_iff K]
  constructor
  · rintro ⟨h1, h2⟩
    refine ⟨?_, fun h => ⟨(h1 h).1.2.2, (h1 h).2.2.2⟩, fun h => ⟨(h2 h).1.2.2, (h2 h).2.2.2⟩⟩
    rintro (h | h)
    · exact ⟨(h1 h).1.1, (h1 h).1.2.1⟩
    · exact ⟨(h2 h).1.1, (h2 h).1.2.1⟩
  · rintro ⟨h0, h1, h2⟩
    exact ⟨fun h => ⟨⟨(h0 (.inl h)).1, (h0 (.inl h)).2, (h1 h).1⟩, (h0 (.inl h)).1, (h0 (.inl h)).2, (h1 h).2⟩,
      fun h => ⟨⟨(h0 (.inr h)).1, (h0 (.inr h)).2, (h2 h).1⟩, (h0 (.inr h)).1, (h0 (.inr h)).2, (h2 h).2⟩⟩

/-! ### A world, and cases -/

theorem costsOk_iff (p : KdfParams) : CostsOk p ↔ (1 ≤ p.pCost ∧ p.pCost < 2 ^ 24) ∧ (8 * p.pCost ≤ p.mCost ∧ p.mCost < 2 ^ 32) ∧
    (1 ≤ p.tCost ∧ p.tCost < 2 ^ 32) ∧ 4 ≤ p.outputLen ∧ p.outputLen < 2 ^ 32 :=
  ⟨fun h => ⟨h.1, h.2, h.3, h.4⟩, fun h => ⟨h.1, h.2.1, h.2.2.1, h.2.2.2⟩⟩

instance (p : KdfParams) : Decidable (CostsOk p) := decidable_of_iff _ (costsOk_iff p).symm
instance (pw : Str) (salt : Bytes) : Decidable (InputsOk pw salt) :=
  decidable_of_iff ((8 ≤ salt.length ∧ salt.length < 2 ^ 32) ∧ (utf8 pw).length < 2 ^ 32)
    ⟨fun h => ⟨h.1, h.2⟩, fun h => ⟨h.1, h.2⟩⟩

/-- An environment with Argon2id; the default costs are those of the Rust crate. -/
@[reducible] def hashed (E : Env) : Env :=
  { E with
    kdfDefault := ⟨19456, 1, 2, 32⟩
    kdf := fun p pw salt =>
      if CostsOk p ∧ InputsOk pw salt then
        .ok (Argon2.argon2id p.mCost p.tCost p.pCost p.outputLen (utf8 pw) salt [] [])
      else .error "argon2 error".toList }

theorem hashed_argon (E : Env) : Argon2Keys (hashed E) := by
  intro p pw salt key
  show (if CostsOk p ∧ InputsOk pw salt then
      (Except.ok (Argon2.argon2id p.mCost p.tCost p.pCost p.outputLen (utf8 pw) salt [] []) : Except Str Bytes)
    else .error "argon2 error".toList) = .ok key ↔ _
  split
  · rename_i h
    exact ⟨fun e => ⟨h.1, h.2, Except.ok.inj e⟩, fun e => congrArg Except.ok e.2.2⟩
  · rename_i h
    exact ⟨fun e => (nomatch e), fun e => absurd ⟨e.1, e.2.1⟩ h⟩

theorem hashed_of (A : Actual E) : Actual (hashed E) := ⟨A.sha256, A.sha384, A.blake3, A.enc, A.dec⟩

theorem hashed_texts_of (A : Pkcs8Keys E seed) : Pkcs8Keys (hashed E) seed := ⟨A.length, A.ext, A.write, A.read⟩

theorem hashed_signatures_of (S : Ed25519Keys E seed) : Ed25519Keys (hashed E) seed :=
  ⟨S.pub, S.sign, S.verify, S.reads, S.bytes, S.ext, S.origin⟩

theorem hashed_actual : Actual (hashed standard) := hashed_of standard_standard.actual
theorem hashed_texts : Pkcs8Keys (hashed standard) standardSeed := hashed_texts_of standard_texts
theorem hashed_signatures : Ed25519Keys (hashed standard) standardSeed := hashed_signatures_of standard_signatures

/-- Calls on an identity: both methods are built. -/
def hashedOps : List (IdOp (hashed standard)) :=
  [.auth ⟨sampleKey, (⟨List.replicate 32 9, rfl⟩ : Bytes32)⟩,
   .assertion ⟨(⟨List.replicate 32 1, rfl⟩ : Bytes32), (⟨List.replicate 32 2, rfl⟩ : Bytes32)⟩]

/-- The lowest costs there are: 8 KiB, one pass. -/
def lowest : KdfParams := ⟨8, 1, 1, 32⟩

theorem lowest_ok : CostsOk lowest ∧ InputsOk "pw".toList (utf8 "saltsalt".toList) := by
  rw [utf8_eq]
  decide +kernel

/-- `C90_any_cost`, `C90_restore`, `C90_file`: the key of RFC 8410 in a record at the lowest costs; the account signs with it. -/
example : ∃ ks pem a, ks.kdfParams = lowest ∧ OpensTo "pw".toList ks (utf8 pem) ∧
    Account.fromKeysecure (hashed standard) "pw".toList ks = .ok a ∧ a.sign [1] = Ed25519.sign Pkcs8.sample [1] := by
  obtain ⟨ks, h1, -, -, h2⟩ := C90_any_cost (hashed_argon _) hashed_actual hashed_texts ⟨sampleKey⟩ "pw".toList lowest lowest_ok.1 rfl
    "saltsalt".toList lowest_ok.2 (List.replicate 24 7) rfl
  obtain ⟨pem, h3, -⟩ := (C90_restore (hashed_argon _) hashed_actual _ _ _).mp h2
  exact ⟨ks, pem, _, h1, h3, h2, hashed_signatures.sign _ _⟩

/-- `C90_size`: a record that asks for 16 bytes. -/
example : ∃ e, Account.fromKeysecure (hashed standard) "pw".toList ⟨"00".toList, "00".toList, ⟨8, 1, 1, 16⟩, "saltsalt".toList⟩ = .error e :=
  (C90_size (hashed_argon _) hashed_actual _ (by decide) _).1

/-- `C90_exports`, `C90_opens`: an identity with both methods is exported, with salts of eight characters, and not with the
shorter salts of `toyRandom`. -/
example : ∃ r : PrivateKeysRandom, (∃ out, (idRun "did:x".toList hashedOps).buildPrivateKeys r "pw".toList = .ok out) ∧
    ¬ ∃ out, (idRun "did:x".toList hashedOps).buildPrivateKeys ⟨toyRandom, toyRandom, toyRandom, toyRandom⟩
      "pw".toList = .ok out := by
  let r : ExportRandom := ⟨"saltsalt".toList, List.replicate 24 7, rfl⟩
  have hr : InputsOk "pw".toList (utf8 r.salt) := lowest_ok.2
  refine ⟨⟨r, r, r, r⟩, ?_, ?_⟩
  · exact (C90_exports (hashed_argon _) hashed_actual hashed_texts _ _ _ _).mpr
      ⟨fun _ => by decide +kernel, fun _ => ⟨hr, hr⟩, fun _ => ⟨hr, hr⟩⟩
  · intro h
    have := (C90_exports (hashed_argon _) hashed_actual hashed_texts _ _ _ _).mp h
    have h8 := (this.2.1 (by simp [hashedOps, firstAuth])).1.salt.1
    rw [utf8_eq] at h8
    exact absurd h8 (by decide)

end Verif.Props
