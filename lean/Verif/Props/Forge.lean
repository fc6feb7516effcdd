import Verif.Concrete.Poly1305
import Verif.Props.Pads

/-
C97: stored keys whose cipher text was changed without the password (core/src/account/mod.rs:71-107,
core/src/keys/secure.rs; `Verif/Concrete/Poly1305.lean`).
-/

namespace Verif.Spec
open Verif

/-- The number that authenticates the cipher texts under a key and a nonce: the first sixteen bytes of block zero, with 22 of
its bits cleared (RFC 8439, 2.5 and 2.6). -/
def oneTimeNumber (key nonce : Bytes) : Nat :=
  Blake3.leVal ((XChaCha.block (XChaCha.hchacha key (nonce.take 16)) ([0, 0, 0, 0] ++ nonce.drop 16) 0).take 16) &&&
    0x0ffffffc0ffffffc0ffffffc0fffffff

/-- `r` is this number for the password and the record. -/
def OneTimeOf (E : Env) (pw : Str) (ks : KeySecure) (r : Nat) : Prop :=
  ∃ key nonce, E.kdf ks.kdfParams pw (utf8 ks.salt) = .ok key ∧ IsHexAny nonce ks.nonce ∧ r = oneTimeNumber key nonce

/-- Pieces of sixteen bytes that are authenticated: the cipher text without its tag, and the lengths. -/
def piecesOf (c : Bytes) : Nat := (c.length - 16 + 15) / 16 + 1

end Verif.Spec

namespace Verif.Props
open Verif Spec

theorem encrypt_parts (key nonce b : Bytes) :
    XChaCha.tag (XChaCha.derive key nonce).1 (XChaCha.derive key nonce).2 []
        ((XChaCha.encrypt key nonce [] b).take ((XChaCha.encrypt key nonce [] b).length - 16)) =
      (XChaCha.encrypt key nonce [] b).drop ((XChaCha.encrypt key nonce [] b).length - 16) := by
  have hl : (XChaCha.encrypt key nonce [] b).length - 16 =
      (XChaCha.chacha (XChaCha.derive key nonce).1 (XChaCha.derive key nonce).2 b).length := by
    rw [XChaCha.encrypt_length, XChaCha.chacha_length]; omega
  rw [hl]
  unfold XChaCha.encrypt
  simp only
  rw [List.take_left, List.drop_left]

/-- C97: a record whose cipher text was changed is refused, whatever it was changed to, unless a number that password, costs,
salt and nonce give is among a few that the two cipher texts determine: at most eight for each piece of sixteen bytes. -/
theorem C97_changed (c c' : Bytes) (h : c ≠ c') : ∃ S : Finset Nat, S.card ≤ 8 * max (piecesOf c) (piecesOf c') ∧
    ∀ (E : Env) (pw : Str) (ks ks' : KeySecure) (b b' : Bytes), OnePad ks ks' → IsHexAny c ks.cipherText →
      IsHexAny c' ks'.cipherText → Encrypts E pw ks b → Encrypts E pw ks' b' → ∀ r, OneTimeOf E pw ks r → r ∈ S := by
  have parts : ∀ c : Bytes, c.take (c.length - 16) ++ c.drop (c.length - 16) = c := fun c => List.take_append_drop _ _
  have hopen : ∀ (E : Env) (pw : Str) (ks ks' : KeySecure) (b b' : Bytes), OnePad ks ks' → IsHexAny c ks.cipherText →
      IsHexAny c' ks'.cipherText → Encrypts E pw ks b → Encrypts E pw ks' b' → ∀ r, OneTimeOf E pw ks r →
      ∃ k n, XChaCha.tag k n [] (c.take (c.length - 16)) = c.drop (c.length - 16) ∧
        XChaCha.tag k n [] (c'.take (c'.length - 16)) = c'.drop (c'.length - 16) ∧ XChaCha.oneTime k n = r := by
    rintro E pw ks ks' b b' ⟨o1, o2, n, o3, o4⟩ hc hc' ⟨key, nonce, h1, -, h2, -, h3⟩ ⟨key', nonce', h1', -, h2', -, h3'⟩ r
      ⟨key2, nonce2, g1, g2, rfl⟩
    rw [o1, o2, h1'] at h1 g1
    cases h1
    cases g1
    cases hexAny_unique h2 o3
    cases hexAny_unique h2' o4
    cases hexAny_unique g2 o3
    cases hexAny_unique hc h3
    cases hexAny_unique hc' h3'
    exact ⟨_, _, encrypt_parts _ _ _, encrypt_parts _ _ _, rfl⟩
  by_cases hb : c.take (c.length - 16) = c'.take (c'.length - 16)
  · refine ⟨∅, by simp, fun E pw ks ks' b b' o hc hc' e e' r hr => ?_⟩
    obtain ⟨k, n, t1, t2, -⟩ := hopen E pw ks ks' b b' o hc hc' e e' r hr
    refine absurd ?_ h
    rw [← parts c, ← parts c', ← t1, ← t2, hb]
  · obtain ⟨S, hS, hmem⟩ := XChaCha.few _ _ (c.drop (c.length - 16)) (c'.drop (c'.length - 16)) hb
    refine ⟨S, ?_, fun E pw ks ks' b b' o hc hc' e e' r hr => ?_⟩
    · have l : ∀ c : Bytes, (c.take (c.length - 16)).length = c.length - 16 := fun c => by rw [List.length_take]; omega
      rw [l, l] at hS
      unfold piecesOf
      omega
    · obtain ⟨k, n, t1, t2, rfl⟩ := hopen E pw ks ks' b b' o hc hc' e e' r hr
      exact hmem k n t1 t2

/-- C97: this number is one of 2^106. -/
theorem C97_numbers : XChaCha.clamped.card = 2 ^ 106 ∧
    ∀ (E : Env) (pw : Str) (ks : KeySecure) (r : Nat), OneTimeOf E pw ks r → r ∈ XChaCha.clamped := by
  refine ⟨XChaCha.clamped_card, ?_⟩
  rintro E pw ks r ⟨key, nonce, -, -, rfl⟩
  exact XChaCha.clamp_mem _

/-- C97: the stored key of an account, changed to a cipher text that is not longer: of the 2^106 numbers at most 96 let the
library restore an account from it, the same 96 for all passwords, salts and nonces. -/
theorem C97_account (c c' : Bytes) (h : c ≠ c') (hl : c'.length ≤ 184) : ∃ S : Finset Nat, S.card ≤ 96 ∧
    ∀ (E : Env) (seed : E.EdKP → Bytes), Pkcs8Keys E seed → Actual E → ∀ (a : Account E) (pub : Str) (x : ExportRandom) (pw : Str)
      (ks : KeySecure), (Verification.Pairs.mk (E := E) pub a.privkey).buildKeysecure x pw = .ok ks →
      IsHexAny c ks.cipherText → ∀ t, IsHexAny c' t → ∀ a',
      Account.fromKeysecure E pw { ks with cipherText := t } = .ok a' → ∀ r, OneTimeOf E pw ks r → r ∈ S := by
  by_cases hc : c.length ≤ 184
  · obtain ⟨S, hS, hmem⟩ := C97_changed c c' h
    refine ⟨S, hS.trans (by unfold piecesOf; omega), ?_⟩
    intro E seed A H a pub x pw ks hk hc t ht a' hr r hone
    obtain ⟨⟨pem, e, -⟩, -⟩ := (C81_record A H a pw).2 pub x ks hk
    obtain ⟨pem', e', -⟩ := (C78_restore H pw _ a').mp hr
    have hn : ∃ n, IsHexAny n ks.nonce := by
      obtain ⟨_, n, _, _, hn, _⟩ := e
      exact ⟨n, hn⟩
    obtain ⟨n, hn⟩ := hn
    exact hmem E pw ks { ks with cipherText := t } _ _ ⟨rfl, rfl, n, hn, hn⟩ hc ht e e' r hone
  · refine ⟨∅, by simp, ?_⟩
    intro E seed A H a pub x pw ks hk hc' t ht a' hr r hone
    have := ((C81_record A H a pw).2 pub x ks hk).2
    have h2 := congrArg List.length (isHex_iff.mp hc')
    rw [List.length_map, hexEncode_length] at h2
    omega

/-- C97: the same of a stored agreement key, with at most 40 numbers. -/
theorem C97_agreement (c c' : Bytes) (h : c ≠ c') (hl : c'.length ≤ 80) : ∃ S : Finset Nat, S.card ≤ 40 ∧
    ∀ (E : Env), X25519Keys E → Actual E → ∀ (p : Agreement.Pairs E) (x : ExportRandom) (pw : Str) (ks v : KeySecure),
      p.buildKeysecure x pw = .ok ks → IsHexAny c ks.cipherText → ∀ t, IsHexAny c' t → ∀ b,
      (PrivateKeyPairs.mk v { ks with cipherText := t }).decryptAgreement E pw = .ok b → ∀ r, OneTimeOf E pw ks r → r ∈ S := by
  by_cases hc : c.length ≤ 80
  · obtain ⟨S, hS, hmem⟩ := C97_changed c c' h
    refine ⟨S, hS.trans (by unfold piecesOf; omega), ?_⟩
    intro E X H p x pw ks v hk hc t ht b hr r hone
    obtain ⟨⟨hex, -, -, e⟩, -⟩ := C81_agreement_record X H p x pw ks hk
    have e' : Encrypts E pw { ks with cipherText := t } b :=
      encrypts_of_decrypts H (((C67_decrypt _ pw).2.1 b).mp hr)
    have hn : ∃ n, IsHexAny n ks.nonce := by
      obtain ⟨_, n, _, _, hn, _⟩ := e
      exact ⟨n, hn⟩
    obtain ⟨n, hn⟩ := hn
    exact hmem E pw ks { ks with cipherText := t } _ _ ⟨rfl, rfl, n, hn, hn⟩ hc ht e e' r hone
  · refine ⟨∅, by simp, ?_⟩
    intro E X H p x pw ks v hk hc' t ht b hr r hone
    have := (C81_agreement_record X H p x pw ks hk).2
    have h2 := congrArg List.length (isHex_iff.mp hc')
    rw [List.length_map, hexEncode_length] at h2
    omega

/-- C97: a record of which only the last sixteen bytes were changed is always refused. -/
theorem C97_tag {E : Env} (A : Actual E) {pw : Str} {ks ks' : KeySecure} (o : OnePad ks ks') {c c' : Bytes}
    (hc : IsHexAny c ks.cipherText) (hc' : IsHexAny c' ks'.cipherText) (hl : c.length = c'.length)
    (hb : c.take (c.length - 16) = c'.take (c'.length - 16)) (hne : c ≠ c') {a : Account E}
    (h : Account.fromKeysecure E pw ks = .ok a) : ∃ e, Account.fromKeysecure E pw ks' = .error e := by
  cases h' : Account.fromKeysecure E pw ks' with
  | error e => exact ⟨e, rfl⟩
  | ok a' =>
    obtain ⟨pem, e, -⟩ := (C78_restore A pw ks a).mp h
    obtain ⟨pem', e', -⟩ := (C78_restore A pw ks' a').mp h'
    obtain ⟨key, nonce, rfl, rfl⟩ := onePad_open e e' o hc hc'
    refine absurd ?_ hne
    rw [← List.take_append_drop ((XChaCha.encrypt key nonce [] (utf8 pem)).length - 16) (XChaCha.encrypt key nonce [] (utf8 pem)),
      ← List.take_append_drop ((XChaCha.encrypt key nonce [] (utf8 pem')).length - 16) (XChaCha.encrypt key nonce [] (utf8 pem')),
      ← encrypt_parts, ← encrypt_parts, hb]

/-! ### Cases -/

/-- `C97_account`, `C97_changed`: two accounts on one pad, the cipher text of the second in place of the first; it is restored,
so the number is among the few. -/
example : ∃ (c c' : Bytes) (S : Finset Nat) (ks : KeySecure) (t : Str) (r : Nat), c ≠ c' ∧ c'.length ≤ 184 ∧ S.card ≤ 96 ∧
    (Verification.Pairs.mk (E := standard) [] ownAccount.privkey).buildKeysecure toyRandom "pw".toList = .ok ks ∧
    IsHexAny c ks.cipherText ∧ IsHexAny c' t ∧
    Account.fromKeysecure standard "pw".toList { ks with cipherText := t } = .ok otherAccount ∧
    OneTimeOf standard "pw".toList ks r ∧ r ∈ S ∧ r ∈ XChaCha.clamped := by
  obtain ⟨ks, c, h, e, hc, hl⟩ := standard_stored ownAccount [] toyRandom "pw".toList
  obtain ⟨ks', c', h', e', hc', hl'⟩ := standard_stored otherAccount [] toyRandom "pw".toList
  have o := (C96_repeats (.verification _ h) (.verification _ h')).mpr ⟨rfl, rfl⟩
  have r' := (C81_record standard_texts standard_standard.actual otherAccount "pw".toList).1 _ _ e'
    ((Pkcs8.keyPem_iff _ _).mpr ⟨standard_texts.length _, .inr rfl⟩)
  have r0 := (C81_record standard_texts standard_standard.actual ownAccount "pw".toList).1 _ _ e
    ((Pkcs8.keyPem_iff _ _).mpr ⟨standard_texts.length _, .inr rfl⟩)
  have hne : c ≠ c' := by
    intro hcc
    have hb := (C96_same e e' o hc hc').mp hcc
    rw [hb] at e
    have r2 := (C81_record standard_texts standard_standard.actual otherAccount "pw".toList).1 _ _ e
      ((Pkcs8.keyPem_iff _ _).mpr ⟨standard_texts.length _, .inr rfl⟩)
    rw [r0] at r2
    exact ownAccount_ne (Except.ok.inj r2)
  obtain ⟨S, hS, hmem⟩ := C97_account c c' hne (by omega)
  have hks : ks'.nonce = ks.nonce ∧ ks'.kdfParams = ks.kdfParams ∧ ks'.salt = ks.salt := by
    obtain ⟨-, -, -, f2, f3, f4⟩ := ((C67_verification_build toyRandom _ "pw".toList).1 ks).mp h
    obtain ⟨-, -, -, g2, g3, g4⟩ := ((C67_verification_build toyRandom _ "pw".toList).1 ks').mp h'
    exact ⟨(isHex_iff.mp g2).trans (isHex_iff.mp f2).symm, g3.trans f3.symm, g4.trans f4.symm⟩
  have eks : { ks with cipherText := ks'.cipherText } = ks' := by
    obtain ⟨q1, q2, q3⟩ := hks
    rw [← q1, ← q2, ← q3]
  have hone : ∃ r, OneTimeOf standard "pw".toList ks r := by
    obtain ⟨key, nonce, k1, _, k2, _⟩ := e
    exact ⟨_, key, nonce, k1, k2, rfl⟩
  obtain ⟨r, hone⟩ := hone
  exact ⟨c, c', S, ks, ks'.cipherText, r, hne, by omega, hS, h, hc, hc', by rw [eks]; exact r', hone,
    hmem standard standardSeed standard_texts standard_standard.actual ownAccount [] toyRandom "pw".toList ks h hc _ hc' _
      (by rw [eks]; exact r') r hone, C97_numbers.2 _ _ _ _ hone⟩

/-- `C97_tag`: the last byte changed. -/
example : ∃ (ks : KeySecure) (c : Bytes), Account.fromKeysecure standard "pw".toList ks = .ok ownAccount ∧
    IsHexAny c ks.cipherText ∧ c.length = 184 ∧
    ∃ e, Account.fromKeysecure standard "pw".toList
      { ks with cipherText := hexEncode (c.take 183 ++ [(c.getD 183 0) ^^^ 1]) } = .error e := by
  obtain ⟨ks, c, h, e, hc, hl⟩ := standard_stored ownAccount [] toyRandom "pw".toList
  have r0 := (C81_record standard_texts standard_standard.actual ownAccount "pw".toList).1 _ _ e
    ((Pkcs8.keyPem_iff _ _).mpr ⟨standard_texts.length _, .inr rfl⟩)
  have hn : ∃ n, IsHexAny n ks.nonce := by
    obtain ⟨_, n, _, _, hn, _⟩ := e
    exact ⟨n, hn⟩
  obtain ⟨n, hn⟩ := hn
  have h184 : (c.take 183 ++ [(c.getD 183 0) ^^^ 1]).length = 184 := by rw [List.length_append, List.length_take]; simp; omega
  refine ⟨ks, c, r0, hc, hl, C97_tag standard_standard.actual (ks := ks)
    (ks' := { ks with cipherText := hexEncode (c.take 183 ++ [(c.getD 183 0) ^^^ 1]) }) ⟨rfl, rfl, n, hn, hn⟩ hc
    (hexAny_of_hex (hexEncode_spec _)) (by rw [h184, hl]) ?_ ?_ r0⟩
  · rw [h184, hl, List.take_append_of_le_length (by rw [List.length_take]; omega), List.take_take]
    rfl
  · intro he
    have := congrArg (·[183]?) he
    rw [List.getElem?_append_right (by rw [List.length_take]; omega), List.length_take,
      List.getElem?_eq_getElem (show 183 < c.length by omega)] at this
    rw [show 183 - min 183 c.length = 0 by omega, List.getD_eq_getElem?_getD,
      List.getElem?_eq_getElem (show 183 < c.length by omega)] at this
    simp only [Option.getD_some, List.getElem?_cons_zero, Option.some.injEq] at this
    generalize c[183] = x at this
    have h2 : x ^^^ x = x ^^^ (x ^^^ 1) := congrArg (x ^^^ ·) this
    rw [← UInt8.xor_assoc, UInt8.xor_self, UInt8.zero_xor] at h2
    exact absurd h2 (by decide)

/-- `C97_agreement`: its hypotheses hold. -/
example : ∃ (c c' : Bytes) (S : Finset Nat) (ks : KeySecure) (t : Str) (b : Bytes) (r : Nat), c ≠ c' ∧ c'.length ≤ 80 ∧ S.card ≤ 40 ∧
    (PrivateKeyPairs.mk ks { ks with cipherText := t }).decryptAgreement standard "pw".toList = .ok b ∧ IsHexAny c ks.cipherText ∧
    IsHexAny c' t ∧ OneTimeOf standard "pw".toList ks r ∧ r ∈ S := by
  obtain ⟨ks, c, h, e, hc, hl⟩ := standard_record toyRandom "pw".toList (utf8 (hexEncode (List.replicate 32 (9 : UInt8))))
  obtain ⟨ks', c', h', e', hc', hl'⟩ := standard_record toyRandom "pw".toList [1, 2, 3]
  have g := ((C67_agreement_build toyRandom (Agreement.Pairs.mk (E := standard) []
    (⟨List.replicate 32 9, rfl⟩ : Bytes32)) "pw".toList).1 ks).mpr ⟨_, hexEncode_spec _, h⟩
  have h64 : (utf8 (hexEncode (List.replicate 32 (9 : UInt8)))).length = 64 := by rw [utf8_eq]; decide +kernel
  have hne : c ≠ c' := by
    intro hcc
    rw [hcc, hl', h64] at hl
    exact absurd hl (by decide)
  have eks : { ks with cipherText := ks'.cipherText } = ks' := by
    obtain ⟨-, f2, f3, f4⟩ := h
    obtain ⟨-, g2, g3, g4⟩ := h'
    rw [← (isHex_iff.mp g2).trans (isHex_iff.mp f2).symm, ← g3.trans f3.symm, ← g4.trans f4.symm]
  obtain ⟨S, hS, hmem⟩ := C97_agreement c c' hne (by rw [hl']; decide)
  have hone : ∃ r, OneTimeOf standard "pw".toList ks r := by
    obtain ⟨key, nonce, k1, _, k2, _⟩ := e
    exact ⟨_, key, nonce, k1, k2, rfl⟩
  obtain ⟨r, hone⟩ := hone
  have hd : (PrivateKeyPairs.mk ks { ks with cipherText := ks'.cipherText }).decryptAgreement standard "pw".toList = .ok [1, 2, 3] := by
    rw [eks]
    exact ((C67_decrypt (PrivateKeyPairs.mk ks ks') "pw".toList).2.1 _).mpr
      ((C67_record (C78_laws standard_standard.actual).2 h').mpr rfl)
  exact ⟨c, c', S, ks, ks'.cipherText, _, r, hne, by rw [hl']; decide, hS, hd, hc, hc', hone,
    hmem standard standard_agreement standard_standard.actual _ toyRandom "pw".toList ks ks g hc _ hc' _ hd r hone⟩

end Verif.Props
