import Verif.Props.Keys
import Verif.Props.Hashlink
import Verif.Props.Documents

/-
C72: exactly which failure each reader of stored keys, hash links and JSON bytes reports, core/src/account/mod.rs:71-107,
core/src/keys/secure.rs:49-65, core/src/did.rs (from_keysecure), core/src/hashlink.rs:12-49, core/src/types.rs:143-152.
-/

namespace Verif.Spec
open Verif

/-- How opening a stored key ends without the secret bytes; the `AccountError` and the steps that succeeded before. -/
inductive OpenFails (E : Env) (pw : Str) (ks : KeySecure) : Str → Prop where
  /-- the cipher text is not hex -/
  | cipher (h : ∀ c, ¬ IsHexAny c ks.cipherText) : OpenFails E pw ks (E.msg (.hex ks.cipherText))
  /-- the key derivation fails -/
  | kdf {c m} (h : IsHexAny c ks.cipherText) (hk : E.kdf ks.kdfParams pw (utf8 ks.salt) = .error m) : OpenFails E pw ks m
  /-- the nonce is not hex -/
  | nonce {c k} (h : IsHexAny c ks.cipherText) (hk : E.kdf ks.kdfParams pw (utf8 ks.salt) = .ok k)
      (hn : ∀ n, ¬ IsHexAny n ks.nonce) : OpenFails E pw ks (E.msg (.hex ks.nonce))
  /-- everything is well-formed and the AEAD refuses -/
  | refused {c k n m} (h : IsHexAny c ks.cipherText) (hk : E.kdf ks.kdfParams pw (utf8 ks.salt) = .ok k)
      (hn : IsHexAny n ks.nonce) (hl : n.length = 24) (hd : E.aeadDec k n c = .error m) : OpenFails E pw ks m

/-- The nonce has another length than 24 bytes, everything before was in order. -/
def BadNonce (E : Env) (pw : Str) (ks : KeySecure) (n : Bytes) : Prop :=
  (∃ c, IsHexAny c ks.cipherText) ∧ (∃ k, E.kdf ks.kdfParams pw (utf8 ks.salt) = .ok k) ∧
    IsHexAny n ks.nonce ∧ n.length ≠ 24

/-- How restoring an account from a stored key fails. -/
inductive RestoreFails (E : Env) (pw : Str) (ks : KeySecure) : AccountError → Prop where
  | opening {m} (h : OpenFails E pw ks m) : RestoreFails E pw ks (.decodeError m)
  | length {n} (h : BadNonce E pw ks n) : RestoreFails E pw ks (.decodeError "unable to decode nonce".toList)
  /-- the secret is not UTF-8 -/
  | text {b} (h : Props.Decrypts E pw ks b) (hu : ∀ s, b ≠ utf8 s) : RestoreFails E pw ks (.decodeError (E.msg (.utf8 b)))
  /-- the secret is not a PEM -/
  | pem {s m} (h : Props.Decrypts E pw ks (utf8 s)) (hp : E.edOfPem s = .error m) : RestoreFails E pw ks (.decodePEMError m)

end Verif.Spec

namespace Verif.Props
open Verif Spec Hashlink

theorem decodes_none {b : Bytes} : (∀ s, b ≠ utf8 s) ↔ utf8Decode b = none := by
  constructor
  · intro h
    cases hd : utf8Decode b with
    | none => rfl
    | some s => exact absurd ((utf8Decode_iff _ _).mp hd) (h s)
  · intro h s hs
    rw [(utf8Decode_iff _ _).mpr hs] at h
    cases h

theorem hex_none {t : Str} : (∀ b, ¬ IsHexAny b t) ↔ hexDecode t = none := by
  constructor
  · intro h
    cases hd : hexDecode t with
    | none => rfl
    | some b => exact absurd ((hexDecode_iff _ _).mp hd) (h b)
  · intro h b hb
    rw [(hexDecode_iff _ _).mpr hb] at h
    cases h

/-- C72: opening a stored key fails exactly as described: the text of the first failing step is reported. -/
theorem C72_open {E : Env} (pw : Str) (ks : KeySecure) (m : Str) :
    ks.decrypt E pw = .error m ↔ OpenFails E pw ks m ∨ ∃ n, BadNonce E pw ks n ∧ m = E.msg (.nonce n) := by
  constructor
  · intro h
    unfold KeySecure.decrypt at h
    cases hc : hexDecode ks.cipherText with
    | none =>
      rw [hc] at h
      cases h
      exact Or.inl (.cipher (hex_none.mpr hc))
    | some c =>
      have hc' := (hexDecode_iff _ _).mp hc
      rw [hc] at h
      cases hk : E.kdf ks.kdfParams pw (utf8Encode ks.salt) with
      | error m' =>
        rw [hk] at h
        cases h
        exact Or.inl (.kdf hc' (by rw [utf8_eq]; exact hk))
      | ok k =>
        have hk' : E.kdf ks.kdfParams pw (utf8 ks.salt) = .ok k := by rw [utf8_eq]; exact hk
        rw [hk] at h
        simp only [bind, Except.bind] at h
        cases hn : hexDecode ks.nonce with
        | none =>
          rw [hn] at h
          cases h
          exact Or.inl (.nonce hc' hk' (hex_none.mpr hn))
        | some n =>
          have hn' := (hexDecode_iff _ _).mp hn
          rw [hn] at h
          simp only at h
          split at h
          · rename_i hl
            cases h
            exact Or.inr ⟨n, ⟨⟨c, hc'⟩, ⟨k, hk'⟩, hn', hl⟩, rfl⟩
          · rename_i hl
            exact Or.inl (.refused hc' hk' hn' (Decidable.not_not.mp hl) h)
  · intro h
    unfold KeySecure.decrypt
    rcases h with h | ⟨n, ⟨⟨c, hc⟩, ⟨k, hk⟩, hn, hl⟩, rfl⟩
    · cases h with
      | cipher h => rw [hex_none.mp h]
      | kdf h hk =>
        rw [utf8_eq] at hk
        rw [(hexDecode_iff _ _).mpr h]
        simp only [hk, bind, Except.bind]
      | nonce h hk hn =>
        rw [utf8_eq] at hk
        rw [(hexDecode_iff _ _).mpr h]
        simp only [hk, bind, Except.bind, hex_none.mp hn]
      | refused h hk hn hl hd =>
        rw [utf8_eq] at hk
        rw [(hexDecode_iff _ _).mpr h]
        simp only [hk, bind, Except.bind, (hexDecode_iff _ _).mpr hn, hl, ne_eq, not_true, if_false, hd]
    · rw [utf8_eq] at hk
      rw [(hexDecode_iff _ _).mpr hc]
      simp only [hk, bind, Except.bind, (hexDecode_iff _ _).mpr hn, ne_eq, hl, not_false_eq_true, if_true]

/-- The account reader is the dependency's reader followed by UTF-8 and PEM, with its own text for a bad nonce. -/
theorem fromKeysecure_decrypt {E : Env} (pw : Str) (ks : KeySecure) :
    (∀ b, ks.decrypt E pw = .ok b → Account.fromKeysecure E pw ks =
      match utf8Decode b with
      | none => .error (.decodeError (E.msg (.utf8 b)))
      | some s => Account.fromPem E s) ∧
    (∀ n, BadNonce E pw ks n → Account.fromKeysecure E pw ks = .error (.decodeError "unable to decode nonce".toList)) ∧
    (∀ m, OpenFails E pw ks m → Account.fromKeysecure E pw ks = .error (.decodeError m)) := by
  refine ⟨?_, ?_, ?_⟩
  · intro b hb
    obtain ⟨c, n, k, h1, h2, h3, h4, h5⟩ := (decrypt_iff pw ks b).mp hb
    rw [utf8_eq] at h4
    unfold Account.fromKeysecure
    simp only [(hexDecode_iff _ _).mpr h1, h4, (hexDecode_iff _ _).mpr h2, h3, ne_eq, not_true, if_false, h5]
    cases utf8Decode b <;> rfl
  · rintro n ⟨⟨c, h1⟩, ⟨k, h4⟩, h2, h3⟩
    rw [utf8_eq] at h4
    unfold Account.fromKeysecure
    simp only [(hexDecode_iff _ _).mpr h1, h4, (hexDecode_iff _ _).mpr h2, h3, ne_eq, not_false_eq_true, if_true]
  · intro m h
    unfold Account.fromKeysecure
    cases h with
    | cipher h => rw [hex_none.mp h]
    | kdf h hk =>
      rw [utf8_eq] at hk
      simp only [(hexDecode_iff _ _).mpr h, hk]
    | nonce h hk hn =>
      rw [utf8_eq] at hk
      simp only [(hexDecode_iff _ _).mpr h, hk, hex_none.mp hn]
    | refused h hk hn hl hd =>
      rw [utf8_eq] at hk
      simp only [(hexDecode_iff _ _).mpr h, hk, (hexDecode_iff _ _).mpr hn, hl, ne_eq, not_true, if_false, hd]

/-- C72: `Account::from_keysecure` fails exactly as described, with exactly this error. -/
theorem C72_restore {E : Env} (pw : Str) (ks : KeySecure) (e : AccountError) :
    Account.fromKeysecure E pw ks = .error e ↔ RestoreFails E pw ks e := by
  obtain ⟨c1, c2, c3⟩ := fromKeysecure_decrypt (E := E) pw ks
  constructor
  · intro h
    cases hd : ks.decrypt E pw with
    | ok b =>
      rw [c1 b hd] at h
      cases hu : utf8Decode b with
      | none =>
        rw [hu] at h
        cases h
        exact .text ((decrypt_iff ..).mp hd) (decodes_none.mpr hu)
      | some s =>
        rw [hu] at h
        have hb := (utf8Decode_iff _ _).mp hu
        cases hp : E.edOfPem s with
        | ok k => simp only [(C02_pem_accept s k hp).1] at h; cases h
        | error m =>
          simp only [(C02_pem_reject s m hp).1] at h
          cases h
          exact .pem (hb ▸ (decrypt_iff ..).mp hd) hp
    | error m =>
      rcases (C72_open pw ks m).mp hd with ho | ⟨n, hn, _⟩
      · rw [c3 m ho] at h
        cases h
        exact .opening ho
      · rw [c2 n hn] at h
        have he := Except.error.inj h
        subst he
        exact .length hn
  · intro h
    cases h with
    | opening h => exact c3 _ h
    | length h => exact c2 _ h
    | text h hu => rw [c1 _ ((decrypt_iff ..).mpr h), decodes_none.mp hu]
    | pem h hp => rw [c1 _ ((decrypt_iff ..).mpr h), (utf8Decode_iff _ _).mpr rfl]; exact (C02_pem_reject _ _ hp).1

/-- C72: `DID::from_keysecure` fails with the same description, wrapped. -/
theorem C72_restore_did {E : Env} (pw : Str) (ks : KeySecure) (e : DIDError) :
    DID.fromKeysecure E pw ks = .error e ↔
      ∃ m, (RestoreFails E pw ks (.decodeError m) ∧ e = .invalidKeysecure ("unable to decode: ".toList ++ m)) ∨
        (RestoreFails E pw ks (.decodePEMError m) ∧ e = .invalidKeysecure ("decode pem failed: ".toList ++ m)) := by
  simp only [← C72_restore]
  unfold DID.fromKeysecure
  cases hk : Account.fromKeysecure E pw ks with
  | ok a => simp
  | error a =>
    have hd : (∃ m, a = .decodeError m) ∨ ∃ m, a = .decodePEMError m := by
      cases (C72_restore pw ks a).mp hk
      · exact Or.inl ⟨_, rfl⟩
      · exact Or.inl ⟨_, rfl⟩
      · exact Or.inl ⟨_, rfl⟩
      · exact Or.inr ⟨_, rfl⟩
    rcases hd with ⟨m, rfl⟩ | ⟨m, rfl⟩
    · constructor
      · intro h
        exact ⟨m, Or.inl ⟨rfl, (Except.error.inj h).symm⟩⟩
      · rintro ⟨m', ⟨h, rfl⟩ | ⟨h, _⟩⟩
        · cases h; rfl
        · cases h
    · constructor
      · intro h
        exact ⟨m, Or.inr ⟨rfl, (Except.error.inj h).symm⟩⟩
      · rintro ⟨m', ⟨h, _⟩ | ⟨h, rfl⟩⟩
        · cases h
        · cases h; rfl

/-- C72: `decrypt_verification` and `decrypt_agreement` report the failure of their own record. -/
theorem C72_decrypt {E : Env} (p : PrivateKeyPairs) (pw : Str) (e : KeySecureError) :
    (p.decryptVerification E pw = .error e ↔
      ∃ m, (OpenFails E pw p.verification m ∨ ∃ n, BadNonce E pw p.verification n ∧ m = E.msg (.nonce n)) ∧
        e = .decryptError m) ∧
    (p.decryptAgreement E pw = .error e ↔
      ∃ m, (OpenFails E pw p.aggrement m ∨ ∃ n, BadNonce E pw p.aggrement n ∧ m = E.msg (.nonce n)) ∧
        e = .decryptError m) := by
  simp only [← C72_open]
  unfold PrivateKeyPairs.decryptVerification PrivateKeyPairs.decryptAgreement
  constructor
  · cases p.verification.decrypt E pw <;> simp [eq_comm]
  · cases p.aggrement.decrypt E pw <;> simp [eq_comm]

/-- C72: which error checking a hash link reports: an error of the data first, then the encoding, the base, the
digest. -/
theorem C72_hashlink {E : Env} (H : E.HashLaws) (d : Except DIDError JSONValue) (t : Str) (e : DIDError) :
    verifyFromJson E d t = .error e ↔
      d = .error e ∨ ∃ v, d = .ok v ∧
        (((∀ base b, ¬ IsMultibase E base b t) ∧ e = .hashLinkError (E.msg (.multibase t))) ∨
        ∃ base b, IsMultibase E base b t ∧
          ((base ≠ .base58Btc ∧ e = .hashLinkError "unknown base encoded type".toList) ∨
          (base = .base58Btc ∧ b ≠ 0x1e :: 0x20 :: E.blake3 (utf8 v.text) ∧
            e = .hashLinkError "invalid hashlink".toList))) := by
  generalize hx : "unknown base encoded type".toList = x
  generalize hy : "invalid hashlink".toList = y
  cases d with
  | error e0 =>
    have : verifyFromJson E (.error e0) t = .error e0 := rfl
    rw [this]
    simp
  | ok v =>
    have e1 : verifyFromJson E (.ok v) t =
        match E.mbDecode t with
        | none => .error (.hashLinkError (E.msg (.multibase t)))
        | some (base, bytes) =>
          if base ≠ .base58Btc then .error (.hashLinkError x)
          else if bytes ≠ 0x1e :: 0x20 :: E.blake3 (utf8 v.text) then .error (.hashLinkError y)
          else .ok () := by
      rw [← hx, ← hy]
      show (match E.mbDecode t with
        | none => _
        | some (base, bytes) => if _ then _ else
          match multihash32 0x1e (E.blake3 (utf8Encode v.text)) with
          | none => _
          | some out => _) = _
      rw [multihash_spec H, utf8_eq]
    rw [e1]
    simp only [reduceCtorEq, false_or, Except.ok.injEq, exists_eq_left']
    cases hm : E.mbDecode t with
    | none =>
      have hno : ∀ base b, ¬ IsMultibase E base b t := fun base b h => by
        rw [(mbDecode_iff ..).mpr h] at hm
        cases hm
      constructor
      · intro h
        exact Or.inl ⟨hno, (Except.error.inj h).symm⟩
      · rintro (⟨_, rfl⟩ | ⟨base, b, h, _⟩)
        · rfl
        · exact absurd h (hno base b)
    | some p =>
      obtain ⟨base, b⟩ := p
      have hb := (mbDecode_iff ..).mp hm
      have hu : ∀ base' b', IsMultibase E base' b' t → base' = base ∧ b' = b := fun base' b' h => by
        rw [(mbDecode_iff ..).mpr h] at hm
        cases hm
        exact ⟨rfl, rfl⟩
      simp only
      constructor
      · intro h
        refine Or.inr ⟨base, b, hb, ?_⟩
        split at h
        · rename_i hne
          exact Or.inl ⟨hne, (Except.error.inj h).symm⟩
        · rename_i he
          split at h
          · rename_i hne
            exact Or.inr ⟨Decidable.not_not.mp he, hne, (Except.error.inj h).symm⟩
          · cases h
      · rintro (⟨h, _⟩ | ⟨base', b', h, hc⟩)
        · exact absurd hb (h base b)
        · obtain ⟨rfl, rfl⟩ := hu _ _ h
          rcases hc with ⟨hne, rfl⟩ | ⟨he, hne, rfl⟩
          · rw [if_pos hne]
          · rw [if_neg (fun h => h he), if_pos hne]

/-- C72: making a hash link fails only if the data cannot be written as JSON, with that error. -/
theorem C72_hashlink_make {E : Env} (H : E.HashLaws) (d : Except DIDError JSONValue) (e : DIDError) :
    generateFromJson E d = .error e ↔ d = .error e := by
  cases d with
  | error e0 =>
    have : generateFromJson E (.error e0) = .error e0 := rfl
    rw [this]
    simp
  | ok v =>
    have := (C23_shape H v _).mpr (multibaseEncode58_spec _)
    rw [this]
    simp

/-- C72: bytes are refused as JSON text exactly if they are not UTF-8. -/
theorem C72_json_bytes {E : Env} (b : Bytes) (e : DIDError) :
    JSONValue.tryFrom E b = .error e ↔ (∀ s, b ≠ utf8 s) ∧ e = .invalidJSONBytes (E.msg (.utf8 b)) := by
  rw [decodes_none]
  unfold JSONValue.tryFrom
  cases utf8Decode b <;> simp [eq_comm]

/-! ### Examples -/

/-- A stored key whose cipher text is not hex, whose nonce is not hex, and whose nonce is too short. -/
example : RestoreFails Toy.env "pw".toList ⟨"xy".toList, "00".toList, Toy.env.kdfDefault, "s".toList⟩
      (.decodeError "dependency error".toList) ∧
    RestoreFails Toy.env "pw".toList ⟨"00".toList, "xy".toList, Toy.env.kdfDefault, "s".toList⟩
      (.decodeError "dependency error".toList) ∧
    RestoreFails Toy.env "pw".toList ⟨"00".toList, "00".toList, Toy.env.kdfDefault, "s".toList⟩
      (.decodeError "unable to decode nonce".toList) := by
  simp only [← C72_restore]
  exact ⟨by rfl, by rfl, by rfl⟩

/-- Hash links: of another base, of other data, and no multibase at all. -/
example : verifyFromJson Toy.env (.ok ⟨"{}".toList⟩) "f00".toList = .error (.hashLinkError "unknown base encoded type".toList) ∧
    verifyFromJson Toy.env (.ok ⟨"{}".toList⟩) "z1".toList = .error (.hashLinkError "invalid hashlink".toList) ∧
    verifyFromJson Toy.env (.error .buildURIError) "z1".toList = .error .buildURIError := by
  refine ⟨?_, ?_, (C72_hashlink Toy.hashLaws _ _ _).mpr (Or.inl rfl)⟩
  · exact (C72_hashlink Toy.hashLaws _ _ _).mpr (Or.inr ⟨_, rfl, Or.inr ⟨.base16Lower, [0],
      (mbDecode_iff ..).mp (by decide +kernel), Or.inl ⟨by decide, rfl⟩⟩⟩)
  · refine (C72_hashlink Toy.hashLaws _ _ _).mpr (Or.inr ⟨_, rfl, Or.inr ⟨.base58Btc, [0],
      (mbDecode_iff ..).mp (by decide +kernel), Or.inr ⟨rfl, ?_, rfl⟩⟩⟩)
    intro h
    have := congrArg List.length h
    simp at this

/-- Bytes that are not UTF-8. -/
example : JSONValue.tryFrom Toy.env [0x7b, 0xff] = .error (.invalidJSONBytes "dependency error".toList) :=
  (C72_json_bytes _ _).mpr ⟨decodes_none.mpr (by decide +kernel), rfl⟩

end Verif.Props
