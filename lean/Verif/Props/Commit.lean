import Verif.Concrete.TwoKeys
import Verif.Props.Forge

/-
C98: one stored key for two passwords (core/src/keys/secure.rs:49-65, core/src/account/mod.rs:71-107,
`Verif/Concrete/TwoKeys.lean`).
-/

namespace Verif.Spec
open Verif

/-- Password and record give this key and this nonce, of the lengths the cipher takes. -/
def KeyFor (E : Env) (pw : Str) (ks : KeySecure) (key nonce : Bytes) : Prop :=
  E.kdf ks.kdfParams pw (utf8 ks.salt) = .ok key ∧ key.length = 32 ∧ IsHexAny nonce ks.nonce ∧ nonce.length = 24

/-- What is added last to the tag under a key and a nonce: the second sixteen bytes of block zero (RFC 8439, 2.5 and 2.6). -/
def addendNumber (key nonce : Bytes) : Nat :=
  Blake3.leVal (((XChaCha.block (XChaCha.hchacha key (nonce.take 16)) ([0, 0, 0, 0] ++ nonce.drop 16) 0).drop 16).take 16)

/-- Byte `i` of the key stream: block one is the first (RFC 8439, 2.4 and 2.8). -/
def streamByte (key nonce : Bytes) (i : Nat) : UInt8 :=
  (XChaCha.block (XChaCha.hchacha key (nonce.take 16)) ([0, 0, 0, 0] ++ nonce.drop 16) (1 + i / 64)).getD (i % 64) 0

/-- The end of the PEM text of a private key. -/
def keyEnd : Str := "\n-----END PRIVATE KEY-----\n".toList

end Verif.Spec

namespace Verif.Props
open Verif Spec

theorem addend_number (key nonce : Bytes) :
    XChaCha.addend (XChaCha.derive key nonce).1 (XChaCha.derive key nonce).2 = addendNumber key nonce := by
  unfold XChaCha.addend addendNumber
  rw [List.drop_take]
  rfl

theorem hexText (c : Bytes) : ∃ t, IsHexAny c t ∧ t.length = 2 * c.length :=
  ⟨hexEncode c, hexAny_of_hex (hexEncode_spec _), hexEncode_length _⟩

/-- One cipher text that two keys accept. -/
theorem encrypt_of_tags {key nonce key' nonce' c : Bytes}
    (e : XChaCha.tag (XChaCha.derive key nonce).1 (XChaCha.derive key nonce).2 [] c =
      XChaCha.tag (XChaCha.derive key' nonce').1 (XChaCha.derive key' nonce').2 [] c) :
    ∃ b b', XChaCha.encrypt key nonce [] b = XChaCha.encrypt key' nonce' [] b' ∧ b.length = c.length ∧ b'.length = c.length := by
  refine ⟨XChaCha.chacha (XChaCha.derive key nonce).1 (XChaCha.derive key nonce).2 c,
    XChaCha.chacha (XChaCha.derive key' nonce').1 (XChaCha.derive key' nonce').2 c, ?_, XChaCha.chacha_length _ _ _,
    XChaCha.chacha_length _ _ _⟩
  unfold XChaCha.encrypt
  simp only [XChaCha.chacha_twice, e]

theorem tags_of_encrypt {key nonce key' nonce' b b' : Bytes}
    (e : XChaCha.encrypt key nonce [] b = XChaCha.encrypt key' nonce' [] b') :
    ∃ c, XChaCha.tag (XChaCha.derive key nonce).1 (XChaCha.derive key nonce).2 [] c =
      XChaCha.tag (XChaCha.derive key' nonce').1 (XChaCha.derive key' nonce').2 [] c := by
  have h := encrypt_parts key nonce b
  rw [e] at h
  exact ⟨_, h.trans (encrypt_parts key' nonce' b').symm⟩

theorem oneTime_number (key nonce : Bytes) :
    XChaCha.oneTime (XChaCha.derive key nonce).1 (XChaCha.derive key nonce).2 = oneTimeNumber key nonce := rfl

theorem common_cipher {key key' nonce : Bytes} (hne : oneTimeNumber key nonce ≠ oneTimeNumber key' nonce) :
    ∃ b b', XChaCha.encrypt key nonce [] b = XChaCha.encrypt key' nonce [] b' ∧ b.length = 224 ∧ b'.length = 224 := by
  rw [← oneTime_number, ← oneTime_number] at hne
  obtain ⟨c, hl, hc⟩ := XChaCha.two_keys _ _ _ _ hne
  obtain ⟨b, b', e, l1, l2⟩ := encrypt_of_tags hc
  exact ⟨b, b', e, l1.trans hl, l2.trans hl⟩

/-- C98: costs, salt and nonce with two passwords: there is a cipher text that opens under both, unless the keys of the two
passwords have the same number and different addends. -/
theorem C98_iff {E : Env} {pw pw' : Str} {ks : KeySecure} {key key' nonce : Bytes} (h : KeyFor E pw ks key nonce)
    (h' : KeyFor E pw' ks key' nonce) :
    (∃ t b b', Encrypts E pw { ks with cipherText := t } b ∧ Encrypts E pw' { ks with cipherText := t } b') ↔
      (oneTimeNumber key nonce = oneTimeNumber key' nonce → addendNumber key nonce = addendNumber key' nonce) := by
  obtain ⟨h1, h2, h3, h4⟩ := h
  obtain ⟨g1, g2, -, -⟩ := h'
  constructor
  · rintro ⟨t, b, b', ⟨k, n, e1, -, e2, -, e3⟩, k', n', f1, -, f2, -, f3⟩ ho
    rw [h1] at e1
    rw [g1] at f1
    cases e1
    cases f1
    cases hexAny_unique e2 h3
    cases hexAny_unique f2 h3
    obtain ⟨c, hc⟩ := tags_of_encrypt (hexAny_unique e3 f3)
    exact (addend_number key nonce).symm.trans ((XChaCha.no_two_keys ho hc).trans (addend_number key' nonce))
  · intro himp
    have hc : ∃ c, XChaCha.tag (XChaCha.derive key nonce).1 (XChaCha.derive key nonce).2 [] c =
        XChaCha.tag (XChaCha.derive key' nonce).1 (XChaCha.derive key' nonce).2 [] c := by
      by_cases ho : oneTimeNumber key nonce = oneTimeNumber key' nonce
      · have ha := himp ho
        rw [← addend_number, ← addend_number] at ha
        refine ⟨[], ?_⟩
        rw [XChaCha.tag_eq, XChaCha.tag_eq]
        have ho' : XChaCha.oneTime (XChaCha.derive key nonce).1 (XChaCha.derive key nonce).2 =
            XChaCha.oneTime (XChaCha.derive key' nonce).1 (XChaCha.derive key' nonce).2 := ho
        rw [ho']
        unfold XChaCha.addend at ha
        rw [ha]
      · obtain ⟨c, -, hc⟩ := XChaCha.two_keys _ _ _ _ ho
        exact ⟨c, hc⟩
    obtain ⟨c, hc⟩ := hc
    obtain ⟨b, b', e, -⟩ := encrypt_of_tags hc
    obtain ⟨t, ht, -⟩ := hexText (XChaCha.encrypt key nonce [] b)
    exact ⟨t, b, b', ⟨key, nonce, h1, h2, h3, h4, ht⟩, key', nonce, g1, g2, h3, h4, by rw [← e]; exact ht⟩

theorem decrypts_of {E : Env} (A : Actual E) {pw : Str} {ks : KeySecure} {key nonce : Bytes} (h : KeyFor E pw ks key nonce)
    {t : Str} {b : Bytes} (ht : IsHexAny (XChaCha.encrypt key nonce [] b) t) : Decrypts E pw { ks with cipherText := t } b := by
  obtain ⟨h1, h2, h3, h4⟩ := h
  exact ⟨_, nonce, key, ht, h3, h4, h1, (A.dec _ _ _ _).mpr ⟨h2, h4, (XChaCha.decrypt_iff _ _ _ _ _).mpr rfl⟩⟩

/-- C98: if the numbers differ, some cipher text of 480 characters is read by the library with either password, as
verification key and as agreement key, and neither call reports anything. -/
theorem C98_library {E : Env} (A : Actual E) {pw pw' : Str} {ks : KeySecure} {key key' nonce : Bytes}
    (h : KeyFor E pw ks key nonce) (h' : KeyFor E pw' ks key' nonce)
    (hne : oneTimeNumber key nonce ≠ oneTimeNumber key' nonce) : ∃ (t : Str) (b b' : Bytes), t.length = 480 ∧
      b.length = 224 ∧ b'.length = 224 ∧
      (∀ v, (PrivateKeyPairs.mk { ks with cipherText := t } v).decryptVerification E pw = .ok b ∧
        (PrivateKeyPairs.mk { ks with cipherText := t } v).decryptVerification E pw' = .ok b') ∧
      ∀ v, (PrivateKeyPairs.mk v { ks with cipherText := t }).decryptAgreement E pw = .ok b ∧
        (PrivateKeyPairs.mk v { ks with cipherText := t }).decryptAgreement E pw' = .ok b' := by
  obtain ⟨b, b', e, l1, l2⟩ := common_cipher hne
  obtain ⟨t, ht, hlen⟩ := hexText (XChaCha.encrypt key nonce [] b)
  rw [XChaCha.encrypt_length, l1] at hlen
  have d := decrypts_of A h (t := t) (b := b) ht
  have d' := decrypts_of A h' (t := t) (b := b') (e ▸ ht)
  exact ⟨t, b, b', hlen, l1, l2, fun v => ⟨((C67_decrypt _ _).1 _).mpr d, ((C67_decrypt _ _).1 _).mpr d'⟩,
    fun v => ⟨((C67_decrypt _ _).2.1 _).mpr d, ((C67_decrypt _ _).2.1 _).mpr d'⟩⟩

theorem encrypt_stream (key nonce b : Bytes) (i : Nat) (hi : i < b.length) :
    (XChaCha.encrypt key nonce [] b)[i]? = b[i]?.map (· ^^^ streamByte key nonce i) := by
  unfold XChaCha.encrypt
  simp only
  rw [List.getElem?_append_left (by rw [XChaCha.chacha_length]; exact hi)]
  exact XChaCha.xorStream_get _ _ _ _ _ (Nat.le_refl _) i

/-- C98: one record that opens under two passwords: the private keys have one length, and they agree at a place exactly if the
two key streams do. -/
theorem C98_bytes {E : Env} {pw pw' : Str} {ks : KeySecure} {key key' nonce : Bytes} (h : KeyFor E pw ks key nonce)
    (h' : KeyFor E pw' ks key' nonce) {b b' : Bytes} (e : Encrypts E pw ks b) (e' : Encrypts E pw' ks b') :
    b.length = b'.length ∧
      ∀ i < b.length, b[i]? = b'[i]? ↔ streamByte key nonce i = streamByte key' nonce i := by
  obtain ⟨h1, h2, h3, h4⟩ := h
  obtain ⟨g1, g2, -, -⟩ := h'
  obtain ⟨k, n, e1, -, e2, -, e3⟩ := e
  obtain ⟨k', n', f1, -, f2, -, f3⟩ := e'
  rw [h1] at e1
  rw [g1] at f1
  cases e1
  cases f1
  cases hexAny_unique e2 h3
  cases hexAny_unique f2 h3
  have hc := hexAny_unique e3 f3
  have hl : b.length = b'.length := by
    have := congrArg List.length hc
    rw [XChaCha.encrypt_length, XChaCha.encrypt_length] at this
    omega
  refine ⟨hl, fun i hi => ?_⟩
  have hi' : i < b'.length := by omega
  have q := congrArg (·[i]?) hc
  simp only [encrypt_stream _ _ _ i hi, encrypt_stream _ _ _ i hi'] at q
  rw [List.getElem?_eq_getElem hi, List.getElem?_eq_getElem hi'] at q ⊢
  simp only [Option.map_some, Option.some.injEq] at q ⊢
  generalize b[i] = x at *
  generalize b'[i] = y at *
  generalize streamByte key nonce i = u at *
  generalize streamByte key' nonce i = w at *
  constructor
  · rintro rfl
    have := congrArg (x ^^^ ·) q
    simpa only [← UInt8.xor_assoc, UInt8.xor_self, UInt8.zero_xor] using this
  · rintro rfl
    have := congrArg (· ^^^ u) q
    simpa only [UInt8.xor_assoc, UInt8.xor_self, UInt8.xor_zero] using this

theorem keyText_end (s : Bytes) : keyEnd <:+ Pkcs8.keyText s ∧ keyEnd <:+ Pkcs8.keyTextV1 s :=
  ⟨⟨_, rfl⟩, ⟨_, rfl⟩⟩

/-- C98: one record from which two passwords restore accounts by the PEM texts of their secrets: then the two key streams agree
on 76 of the 119 or 168 bytes, the first 49 and the last 27. -/
theorem C98_accounts {E : Env} {pw pw' : Str} {ks : KeySecure} {key key' nonce : Bytes} (h : KeyFor E pw ks key nonce)
    (h' : KeyFor E pw' ks key' nonce) {pem pem' : Str} {s s' : Bytes} (e : Encrypts E pw ks (utf8 pem))
    (e' : Encrypts E pw' ks (utf8 pem')) (hp : IsKeyPem pem s) (hp' : IsKeyPem pem' s') :
    pem.length = pem'.length ∧ (pem.length = 119 ∨ pem.length = 168) ∧
      ∀ i < pem.length, i < 49 ∨ pem.length ≤ i + 27 → streamByte key nonce i = streamByte key' nonce i := by
  obtain ⟨hs, ht⟩ := (Pkcs8.keyPem_iff _ _).mp hp
  obtain ⟨hs', ht'⟩ := (Pkcs8.keyPem_iff _ _).mp hp'
  have ascii : ∀ {pem : Str} {s : Bytes}, pem = Pkcs8.keyTextV1 s ∨ pem = Pkcs8.keyText s → ∀ c ∈ pem, c.toNat < 128 := by
    rintro pem s (rfl | rfl)
    · exact Pkcs8.pem_ascii _
    · exact Pkcs8.pem_ascii _
  have hl : (utf8 pem).length = pem.length := utf8_length_of_ascii (ascii ht)
  have hl' : (utf8 pem').length = pem'.length := utf8_length_of_ascii (ascii ht')
  obtain ⟨q1, q2⟩ := C98_bytes h h' e e'
  rw [hl, hl'] at q1
  rw [hl] at q2
  have happ : ∀ t u : Str, utf8 (t ++ u) = utf8 t ++ utf8 u := by
    intro t u; simp only [utf8_eq]; exact List.flatMap_append
  have h49 : (utf8 longStart).length = 49 ∧ (utf8 shortStart).length = 49 ∧ (utf8 keyEnd).length = 27 := by
    simp only [utf8_eq]; decide +kernel
  have frame : ∀ {t t' start : Str}, t.length = t'.length → (utf8 t).length = t.length → (utf8 t').length = t'.length →
      (utf8 start).length = 49 → start <+: t → start <+: t' → keyEnd <:+ t → keyEnd <:+ t' →
      ∀ i < t.length, i < 49 ∨ t.length ≤ i + 27 → (utf8 t)[i]? = (utf8 t')[i]? := by
    intro t t' start l l1 l2 l3 p p' s s' i hi hor
    rcases hor with hor | hor
    · obtain ⟨r, rfl⟩ := p
      obtain ⟨r', rfl⟩ := p'
      rw [happ, happ, List.getElem?_append_left (by omega), List.getElem?_append_left (by omega)]
    · obtain ⟨r, rfl⟩ := s
      obtain ⟨r', rfl⟩ := s'
      have e1 := h49.2.2
      rw [happ, List.length_append] at l1 l2
      rw [happ, happ, List.getElem?_append_right (by omega), List.getElem?_append_right (by omega)]
      congr 1
      omega
  rcases ht with rfl | rfl <;> rcases ht' with rfl | rfl
  · refine ⟨q1, .inl (Pkcs8.keyTextV1_length hs), fun i hi hor => (q2 i hi).mp ?_⟩
    exact frame q1 hl hl' h49.2.1 (keyText_start hs).2 (keyText_start hs').2 (keyText_end s).2 (keyText_end s').2 i hi hor
  · rw [Pkcs8.keyTextV1_length hs, Pkcs8.keyText_length hs'] at q1; cases q1
  · rw [Pkcs8.keyText_length hs, Pkcs8.keyTextV1_length hs'] at q1; cases q1
  · refine ⟨q1, .inr (Pkcs8.keyText_length hs), fun i hi hor => (q2 i hi).mp ?_⟩
    exact frame q1 hl hl' h49.1 (keyText_start hs).1 (keyText_start hs').1 (keyText_end s).1 (keyText_end s').1 i hi hor

/-- C98: the same of a record that the library made for an account: no other password finds the text of a private key in it,
unless the key streams of the two passwords agree on those 76 bytes. -/
theorem C98_stored {E : Env} {seed : E.EdKP → Bytes} (P : Pkcs8Keys E seed) (A : Actual E) (a : Account E) (pub : Str)
    (r : ExportRandom) (pw pw' : Str) (ks : KeySecure)
    (hk : (Verification.Pairs.mk (E := E) pub a.privkey).buildKeysecure r pw = .ok ks) (v : KeySecure) {key key' nonce : Bytes}
    (h : KeyFor E pw ks key nonce) (h' : KeyFor E pw' ks key' nonce) (b : Bytes)
    (hb : (PrivateKeyPairs.mk ks v).decryptVerification E pw' = .ok b) (s' : Bytes) (pem' : Str) (hp : IsKeyPem pem' s')
    (hpb : b = utf8 pem') :
    ∀ i < b.length, i < 49 ∨ b.length ≤ i + 27 → streamByte key nonce i = streamByte key' nonce i := by
  obtain ⟨⟨pem, e, hq⟩, -⟩ := (C81_record P A a pw).2 pub r ks hk
  have e' : Encrypts E pw' ks b := encrypts_of_decrypts A (((C67_decrypt _ pw').1 b).mp hb)
  subst hpb
  obtain ⟨q1, q2, q3⟩ := C98_accounts h h' e e' hq hp
  have hl : (utf8 pem').length = pem'.length := utf8_length_of_ascii (by
    rcases ((Pkcs8.keyPem_iff _ _).mp hp).2 with rfl | rfl
    · exact Pkcs8.pem_ascii _
    · exact Pkcs8.pem_ascii _)
  rw [hl, ← q1]
  exact q3

/-! ### Cases -/

/-- A record in the world of the standards, and the keys of two passwords. -/
def twoRecord : KeySecure :=
  { cipherText := [], nonce := hexEncode (List.replicate 24 3), kdfParams := standard.kdfDefault, salt := "salt".toList }
def keyA : Bytes := Sha2.sha256 (utf8Encode "a".toList ++ 0xff :: utf8Encode "salt".toList)
def keyB : Bytes := Sha2.sha256 (utf8Encode "b".toList ++ 0xff :: utf8Encode "salt".toList)

theorem keyFor_two (pw : Str) : KeyFor standard pw twoRecord (Sha2.sha256 (utf8Encode pw ++ 0xff :: utf8Encode "salt".toList))
    (List.replicate 24 3) :=
  ⟨by rw [utf8_eq]; rfl, Sha2.sha256_length _, hexAny_of_hex (hexEncode_spec _), rfl⟩

theorem two_numbers : oneTimeNumber keyA (List.replicate 24 3) ≠ oneTimeNumber keyB (List.replicate 24 3) := by
  decide +kernel

/-- `C98_iff`, `C98_library`, `C98_bytes`: a record that opens with the passwords `a` and `b`; what it holds is the same text
under both where the key streams agree, and these differ at the first byte. -/
example : ∃ (t : Str) (b b' : Bytes), t.length = 480 ∧ b[0]? ≠ b'[0]? ∧
    (PrivateKeyPairs.mk { twoRecord with cipherText := t } twoRecord).decryptVerification standard "a".toList = .ok b ∧
    (PrivateKeyPairs.mk { twoRecord with cipherText := t } twoRecord).decryptVerification standard "b".toList = .ok b' := by
  obtain ⟨t, b, b', h1, h2, -, h3, -⟩ := C98_library standard_standard.actual (keyFor_two "a".toList) (keyFor_two "b".toList)
    two_numbers
  obtain ⟨d, d'⟩ := h3 twoRecord
  refine ⟨t, b, b', h1, fun e0 => ?_, d, d'⟩
  have e := encrypts_of_decrypts standard_standard.actual (((C67_decrypt _ _).1 _).mp d)
  have e' := encrypts_of_decrypts standard_standard.actual (((C67_decrypt _ _).1 _).mp d')
  have kf : ∀ pw, KeyFor standard pw { twoRecord with cipherText := t }
      (Sha2.sha256 (utf8Encode pw ++ 0xff :: utf8Encode "salt".toList)) (List.replicate 24 3) := keyFor_two
  have := ((C98_bytes (kf _) (kf _) e e').2 0 (by omega)).mp e0
  revert this
  show streamByte keyA (List.replicate 24 3) 0 = streamByte keyB (List.replicate 24 3) 0 → False
  decide +kernel

attribute [local irreducible] readPem

/-- The world of the standards in which all passwords give one key. -/
def deaf : Env := { standard with kdf := fun _ _ _ => .ok (List.replicate 32 7) }

theorem deaf_actual : Actual deaf :=
  ⟨standard_standard.actual.sha256, standard_standard.actual.sha384, standard_standard.actual.blake3,
    standard_standard.actual.enc, standard_standard.actual.dec⟩

theorem deaf_write (k : Bytes32) : deaf.edPem (deaf.edPriv k) = .ok (Pkcs8.keyText k.1) := rfl

theorem deaf_read (t : Str) : deaf.edOfPem t = readPem t := rfl

/-- The secret bytes of a key pair. -/
def deafSeed (k : deaf.EdKP) : Bytes := (show Bytes32 from k).1

theorem deaf_texts : Pkcs8Keys deaf deafSeed where
  length k := (show Bytes32 from k).2
  ext _ _ h := Subtype.ext (p := fun b : Bytes => b.length = 32) h
  write k := ⟨_, deaf_write k, (Pkcs8.keyPem_iff _ _).mpr ⟨(show Bytes32 from k).2, .inr rfl⟩⟩
  read t s h := ⟨(⟨s, h.1⟩ : Bytes32), (deaf_read t).trans (readPem_ok h), rfl⟩

theorem deaf_record (pw : Str) (plain : Bytes) : ∃ ks, IsRecord deaf toyRandom pw plain ks ∧
    ∀ pw', KeyFor deaf pw' ks (List.replicate 32 7) toyRandom.nonce ∧ Decrypts deaf pw' ks plain := by
  have hn := hexEncode_spec toyRandom.nonce
  generalize hexEncode toyRandom.nonce = n at hn
  have hc := hexEncode_spec (XChaCha.encrypt (List.replicate 32 7) toyRandom.nonce [] plain)
  generalize hexEncode (XChaCha.encrypt (List.replicate 32 7) toyRandom.nonce [] plain) = t at hc
  have hk : ∀ pw', KeyFor deaf pw' ⟨[], n, deaf.kdfDefault, toyRandom.salt⟩ (List.replicate 32 7) toyRandom.nonce :=
    fun pw' => ⟨rfl, List.length_replicate, hexAny_of_hex hn, toyRandom.nonce_len⟩
  exact ⟨⟨t, n, deaf.kdfDefault, toyRandom.salt⟩, ⟨⟨_, _, rfl, (deaf_actual.enc _ _ _ _).mpr ⟨List.length_replicate, toyRandom.nonce_len, rfl⟩, hc⟩,
    hn, rfl, rfl⟩, fun pw' => ⟨hk pw', decrypts_of deaf_actual (hk pw') (hexAny_of_hex hc)⟩⟩

/-- `C98_stored`, `C98_accounts`: there a record opens with the password `b` that was made with the password `a`. -/
example (k : Bytes32) : ∃ (ks : KeySecure) (b : Bytes) (pem : Str), (Verification.Pairs.mk (E := deaf) [] k).buildKeysecure toyRandom
      "a".toList = .ok ks ∧ (PrivateKeyPairs.mk ks ks).decryptVerification deaf "b".toList = .ok b ∧ b = utf8 pem ∧
    IsKeyPem pem k.1 ∧ b.length = 168 ∧
    KeyFor deaf "a".toList ks (List.replicate 32 7) toyRandom.nonce ∧ KeyFor deaf "b".toList ks (List.replicate 32 7) toyRandom.nonce := by
  obtain ⟨ks, h1, h2⟩ := deaf_record "a".toList (utf8 (Pkcs8.keyText k.1))
  have hl : (utf8 (Pkcs8.keyText k.1)).length = 168 :=
    (utf8_length_of_ascii (t := Pkcs8.keyText k.1) (Pkcs8.pem_ascii _)).trans (Pkcs8.keyText_length k.2)
  exact ⟨ks, _, Pkcs8.keyText k.1, ((C67_verification_build toyRandom _ "a".toList).1 _).mpr ⟨_, deaf_write k, h1⟩,
    ((C67_decrypt _ _).1 _).mpr (h2 _).2, rfl, (Pkcs8.keyPem_iff _ _).mpr ⟨k.2, .inr rfl⟩, hl, (h2 _).1, (h2 _).1⟩

end Verif.Props
