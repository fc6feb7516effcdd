import Verif.Spec.HexAny
import Verif.Props.Uri

/-
C01–C07: DID strings, PEM and KeySecure restore, identity text, URI round trip.
-/

namespace Verif.Props
open Verif Spec

/-! ### C01 -/

/-- The digest text of a public key and the DID string, described without the model's codecs. -/
structure IsDidOf (E : Env) (pub : E.EdPub) (hex payload did : Str) : Prop where
  hex_eq : IsHex (E.blake3 (E.sha384 (E.edPubBytes pub))) hex
  payload_eq : IsMultibase58 (utf8 hex) payload
  did_eq : did = "did:prople:".toList ++ payload

theorem identity_isDid {E : Env} (d : DID E) :
    ∃ i hex payload, d.identity = .ok i ∧ IsDidOf E d.account.pubkey hex payload i.value ∧
      i.authentication = none ∧ i.assertion = none := by
  refine ⟨_, _, multibaseEncode58 (utf8Encode (hexEncode (E.blake3 (E.sha384 (E.edPubBytes d.account.pubkey))))),
    rfl, ⟨hexEncode_spec _, ?_, ?_⟩, rfl, rfl⟩
  · rw [utf8_eq]; exact multibaseEncode58_spec _
  · rfl

theorem base58_safe : ∀ c ∈ b58Alphabet, c ≠ ':' ∧ c ≠ '?' ∧ c ≠ '&' ∧ c ≠ '=' ∧ c ≠ '#' := by decide +kernel

theorem payload_safe {b : Bytes} {p : Str} (h : IsMultibase58 b p) :
    ∀ c ∈ p, c ≠ ':' ∧ c ≠ '?' ∧ c ≠ '&' ∧ c ≠ '=' ∧ c ≠ '#' := by
  rw [h.unique]
  intro c hc
  rcases List.mem_cons.mp hc with rfl | hc
  · decide
  · exact base58_safe c (base58Encode_chars _ c hc)

theorem did_safe {E : Env} {pub : E.EdPub} {hex payload did : Str} (h : IsDidOf E pub hex payload did) :
    '?' ∉ did ∧ '&' ∉ did ∧ '=' ∉ did ∧ '#' ∉ did ∧ did.count ':' = 2 := by
  have hp := payload_safe h.payload_eq
  have hc : payload.count ':' = 0 := List.count_eq_zero.mpr fun m => (hp _ m).1 rfl
  rw [h.did_eq]
  refine ⟨?_, ?_, ?_, ?_, ?_⟩
  · rw [List.mem_append, not_or]; exact ⟨by decide, fun m => (hp _ m).2.1 rfl⟩
  · rw [List.mem_append, not_or]; exact ⟨by decide, fun m => (hp _ m).2.2.1 rfl⟩
  · rw [List.mem_append, not_or]; exact ⟨by decide, fun m => (hp _ m).2.2.2.1 rfl⟩
  · rw [List.mem_append, not_or]; exact ⟨by decide, fun m => (hp _ m).2.2.2.2 rfl⟩
  · rw [List.count_append, hc]; rfl

/-! ### C06 -/

theorem joinWith_last (sep : Char) (l : List Str) (hne : l ≠ []) (h2 : 2 ≤ l.length) :
    ∃ pre t, l.getLast? = some t ∧ joinWith sep l = pre ++ sep :: t := by
  induction l with
  | nil => exact absurd rfl hne
  | cons a l ih =>
    cases l with
    | nil => simp at h2
    | cons b l =>
      cases l with
      | nil => exact ⟨a, b, rfl, rfl⟩
      | cons c l =>
        obtain ⟨pre, t, h1, h2⟩ := ih (by simp) (by simp)
        refine ⟨a ++ sep :: pre, t, by rw [List.getLast?_cons_cons, h1], ?_⟩
        rw [joinWith, h2]; simp

/-- C06: `account()` on any identity text. -/
theorem C06_identity_account (E : Env) (s : Str) :
    ((Identity.new E s).account = .error .invalidDID ↔ s.count ':' < 2) ∧
    (2 ≤ s.count ':' → ∃ pre t, s = pre ++ ':' :: t ∧ ':' ∉ t ∧ (Identity.new E s).account = .ok t) := by
  have hl := length_splitOn ':' s
  have key : 2 ≤ s.count ':' →
      ∃ pre t, s = pre ++ ':' :: t ∧ ':' ∉ t ∧ (Identity.new E s).account = .ok t := by
    intro h
    obtain ⟨pre, t, h1, h2⟩ := joinWith_last ':' (splitOn ':' s) (splitOn_ne_nil _ _) (by omega)
    rw [joinWith_splitOn] at h2
    refine ⟨pre, t, h2, splitOn_no_sep _ _ t (List.mem_of_getLast? h1), ?_⟩
    unfold Identity.account Identity.new DID_SYNTAX_MARK
    simp only
    rw [if_neg (show ¬ (splitOn ':' s).length < 3 by omega), h1]
  refine ⟨⟨?_, ?_⟩, key⟩
  · intro h
    by_contra hn
    obtain ⟨_, _, _, _, h'⟩ := key (by omega)
    rw [h] at h'; cases h'
  · intro h
    unfold Identity.account Identity.new DID_SYNTAX_MARK
    simp only
    rw [if_pos (show (splitOn ':' s).length < 3 by omega)]

example : (Identity.new Toy.env "a:b:c:d".toList).account = .ok "d".toList := rfl
example : (Identity.new Toy.env "did:prople".toList).account = .error .invalidDID :=
  ((C06_identity_account Toy.env _).1).mpr (by decide +kernel)

/-- C01: syntax of DID strings. `hex` has 64 characters when BLAKE3 digests have 32 bytes. -/
theorem C01_identity_syntax {E : Env} (H : E.HashLaws) (d : DID E) :
    ∃ i hex payload, d.identity = .ok i ∧
      IsHex (E.blake3 (E.sha384 (E.edPubBytes d.account.pubkey))) hex ∧ hex.length = 64 ∧
      IsMultibase58 (utf8 hex) payload ∧
      i.value = "did:prople:".toList ++ payload ∧
      i.value.count ':' = 2 ∧ '?' ∉ i.value ∧ '&' ∉ i.value ∧ '=' ∉ i.value ∧ '#' ∉ i.value ∧
      i.account = .ok payload ∧
      E.mbDecode payload = some (.base58Btc, utf8 hex) := by
  obtain ⟨i, hex, payload, hi, h, _, _⟩ := identity_isDid d
  obtain ⟨s1, s2, s3, s4, s5⟩ := did_safe h
  refine ⟨i, hex, payload, hi, h.hex_eq, ?_, h.payload_eq, h.did_eq, s5, s1, s2, s3, s4, ?_, ?_⟩
  · rw [h.hex_eq.len, H.blake3_len]
  · obtain ⟨pre, t, h1, h2, h3⟩ := (C06_identity_account E i.value).2 (by omega)
    have : t = payload := by
      rw [h.did_eq] at h1
      have e : "did:prople:".toList ++ payload = "did:prople".toList ++ ':' :: payload := by simp
      rw [e] at h1
      have hp : ':' ∉ payload := fun m => (payload_safe h.payload_eq _ m).1 rfl
      exact append_sep_right hp h2 h1
    rw [← this, ← h3]
    rfl
  · rw [h.payload_eq.unique]
    exact multibaseDecode_encode58 _ _ _
where
  append_sep_right {a b x y : Str} (hx : ':' ∉ x) (hy : ':' ∉ y) (h : a ++ ':' :: x = b ++ ':' :: y) : y = x := by
    rcases List.append_eq_append_iff.mp h with ⟨l, h1, h2⟩ | ⟨l, h1, h2⟩
    · cases l with
      | nil => simp at h2; exact h2.symm
      | cons c l =>
        simp only [List.cons_append, List.cons.injEq] at h2
        exact absurd (by rw [h2.2]; simp) hx
    · cases l with
      | nil => simp at h2; exact h2
      | cons c l =>
        simp only [List.cons_append, List.cons.injEq] at h2
        exact absurd (by rw [h2.2]; simp) hy

example : ∃ i payload, (DID.new Toy.env (7 : UInt8)).identity = .ok i ∧ i.value = "did:prople:".toList ++ payload := by
  obtain ⟨i, _, p, h, _, _, _, h', _⟩ := C01_identity_syntax Toy.hashLaws (DID.new Toy.env (7 : UInt8))
  exact ⟨i, p, h, h'⟩

/-! ### C02 -/

/-- C02: PEM text restores the account, its keys, its signatures and its DID. -/
theorem C02_pem_roundtrip {E : Env} (P : E.PemLaw) (a : Account E) (t : Str) (h : a.buildPem = .ok t) :
    ∃ b : Account E, Account.fromPem E t = .ok b ∧ DID.fromPem E t = .ok ⟨b⟩ ∧
      b = a ∧ b.pubkey = a.pubkey ∧ (∀ m, b.sign m = a.sign m) ∧
      (DID.mk b).identity = (DID.mk a).identity := by
  have h' : E.edPem (E.edPriv a.pair) = .ok t := by
    unfold Account.buildPem at h
    cases hp : E.edPem (E.edPriv a.pair) with
    | ok x => rw [hp] at h; cases h; rfl
    | error m => rw [hp] at h; cases h
  have := P _ _ h'
  have e : Account.fromPem E t = .ok a := by unfold Account.fromPem; rw [this]
  refine ⟨a, e, ?_, rfl, rfl, fun _ => rfl, rfl⟩
  unfold DID.fromPem; rw [e]

/-- C02: a text the PEM decoder rejects. -/
theorem C02_pem_reject {E : Env} (t m : Str) (h : E.edOfPem t = .error m) :
    Account.fromPem E t = .error (.decodePEMError m) ∧ DID.fromPem E t = .error .invalidPEM := by
  have e : Account.fromPem E t = .error (.decodePEMError m) := by unfold Account.fromPem; rw [h]
  exact ⟨e, by unfold DID.fromPem; rw [e]⟩

/-- C02: a text the PEM decoder accepts gives exactly the decoded key. -/
theorem C02_pem_accept {E : Env} (t : Str) (k : E.EdKP) (h : E.edOfPem t = .ok k) :
    Account.fromPem E t = .ok ⟨k⟩ ∧ DID.fromPem E t = .ok ⟨⟨k⟩⟩ := by
  have e : Account.fromPem E t = .ok ⟨k⟩ := by unfold Account.fromPem; rw [h]
  exact ⟨e, by unfold DID.fromPem; rw [e]⟩

example : (Account.new Toy.env (0xab : UInt8)).buildPem = .ok "ab".toList := rfl

/-- `C02_pem_accept` and `C02_pem_reject`: a text of a toy key and one that is none. -/
example : DID.fromPem Toy.env "ab".toList = .ok ⟨⟨(0xab : UInt8)⟩⟩ ∧ DID.fromPem Toy.env "xyz".toList = .error .invalidPEM :=
  ⟨(C02_pem_accept _ _ rfl).2, (C02_pem_reject _ _ rfl).2⟩

/-! ### C04 -/

/-- What a KeySecure record, a password and a key pair have to satisfy for a restore to be legitimate. -/
structure Restores (E : Env) (pw : Str) (ks : KeySecure) (pem : Str) : Prop where
  exists_plain : ∃ cipher nonce key plain, IsHexAny cipher ks.cipherText ∧ IsHexAny nonce ks.nonce ∧
    nonce.length = 24 ∧ E.kdf ks.kdfParams pw (utf8 ks.salt) = .ok key ∧
    E.aeadDec key nonce cipher = .ok plain ∧ plain = utf8 pem

theorem fromKeysecure_cases (E : Env) (pw : Str) (ks : KeySecure) :
    (∃ pem, Restores E pw ks pem ∧ Account.fromKeysecure E pw ks = Account.fromPem E pem) ∨
    ((∀ pem, ¬ Restores E pw ks pem) ∧ ∃ m, Account.fromKeysecure E pw ks = .error (.decodeError m)) := by
  unfold Account.fromKeysecure
  have hu := utf8_eq ks.salt
  cases hc : hexDecode ks.cipherText with
  | none =>
    refine .inr ⟨?_, _, rfl⟩
    rintro pem ⟨cipher, nonce, key, plain, h1, _⟩
    rw [← hexDecode_iff, hc] at h1; cases h1
  | some cipher =>
    cases hk : E.kdf ks.kdfParams pw (utf8Encode ks.salt) with
    | error m =>
      refine .inr ⟨?_, _, rfl⟩
      rintro pem ⟨cipher, nonce, key, plain, _, _, _, h1, _⟩
      rw [hu, hk] at h1; cases h1
    | ok key =>
      cases hn : hexDecode ks.nonce with
      | none =>
        refine .inr ⟨?_, _, rfl⟩
        rintro pem ⟨cipher, nonce, key, plain, _, h1, _⟩
        rw [← hexDecode_iff, hn] at h1; cases h1
      | some nonce =>
        by_cases hl : nonce.length = 24
        · have hl' : ¬ nonce.length ≠ 24 := by omega
          simp only [if_neg hl']
          cases hd : E.aeadDec key nonce cipher with
          | error m =>
            refine .inr ⟨?_, _, rfl⟩
            rintro pem ⟨cipher', nonce', key', plain, h1, h2, _, h3, h4, _⟩
            rw [← hexDecode_iff, hc] at h1
            rw [← hexDecode_iff, hn] at h2
            rw [hu, hk] at h3
            cases h1; cases h2; cases h3
            rw [hd] at h4; cases h4
          | ok plain =>
            simp only
            cases hp : utf8Decode plain with
            | none =>
              refine .inr ⟨?_, _, rfl⟩
              rintro pem ⟨cipher', nonce', key', plain', h1, h2, _, h3, h4, h5⟩
              rw [← hexDecode_iff, hc] at h1
              rw [← hexDecode_iff, hn] at h2
              rw [hu, hk] at h3
              cases h1; cases h2; cases h3
              rw [hd] at h4; cases h4
              rw [← utf8Decode_iff, hp] at h5; cases h5
            | some pem =>
              refine .inl ⟨pem, ⟨cipher, nonce, key, plain, (hexDecode_iff _ _).mp hc, (hexDecode_iff _ _).mp hn,
                hl, by rw [hu, hk], hd, (utf8Decode_iff _ _).mp hp⟩, rfl⟩
        · simp only [if_pos hl]
          refine .inr ⟨?_, _, rfl⟩
          rintro pem ⟨cipher', nonce', key', plain, _, h2, h3, _⟩
          rw [← hexDecode_iff, hn] at h2
          cases h2; exact hl h3

theorem Restores.unique {E : Env} {pw : Str} {ks : KeySecure} {p q : Str} (hp : Restores E pw ks p)
    (hq : Restores E pw ks q) : p = q := by
  obtain ⟨c, n, k, t, a1, a2, _, a3, a4, a5⟩ := hp
  obtain ⟨c', n', k', t', b1, b2, _, b3, b4, b5⟩ := hq
  rw [← hexDecode_iff] at a1 b1 a2 b2
  rw [a1] at b1; rw [a2] at b2; rw [a3] at b3
  cases b1; cases b2; cases b3
  rw [a4] at b4; cases b4
  rw [utf8_eq] at a5 b5
  exact utf8Encode_injective (a5.symm.trans b5)

/-- C04: when `from_keysecure` returns an account. -/
theorem C04_keysecure_accept_iff {E : Env} (pw : Str) (ks : KeySecure) (a : Account E) :
    Account.fromKeysecure E pw ks = .ok a ↔ ∃ pem, Restores E pw ks pem ∧ E.edOfPem pem = .ok a.pair := by
  rcases fromKeysecure_cases E pw ks with ⟨pem, h, e⟩ | ⟨h, m, e⟩
  · rw [e]
    constructor
    · intro g
      refine ⟨pem, h, ?_⟩
      unfold Account.fromPem at g
      cases hp : E.edOfPem pem with
      | ok k => rw [hp] at g; cases g; rfl
      | error m => rw [hp] at g; cases g
    · rintro ⟨q, hq, g⟩
      rw [h.unique hq]
      exact (C02_pem_accept q a.pair g).1
  · rw [e]
    constructor
    · intro g; cases g
    · rintro ⟨q, hq, _⟩; exact absurd hq (h q)

/-- C04: every failure, with its class: `DecodePEMError` exactly when decryption reached a text that is not a
PEM, `DecodeError` otherwise. -/
theorem C04_keysecure_errors {E : Env} (pw : Str) (ks : KeySecure) (e : AccountError)
    (h : Account.fromKeysecure E pw ks = .error e) :
    (∃ pem m, Restores E pw ks pem ∧ E.edOfPem pem = .error m ∧ e = .decodePEMError m) ∨
    ((∀ pem, ¬ Restores E pw ks pem) ∧ ∃ m, e = .decodeError m) := by
  rcases fromKeysecure_cases E pw ks with ⟨pem, hr, g⟩ | ⟨hr, m, g⟩
  · rw [g] at h
    cases hp : E.edOfPem pem with
    | ok k => rw [(C02_pem_accept pem k hp).1] at h; cases h
    | error m =>
      rw [(C02_pem_reject pem m hp).1] at h; cases h
      exact .inl ⟨pem, m, hr, hp, rfl⟩
  · rw [g] at h; cases h
    exact .inr ⟨hr, m, rfl⟩

/-- C04: the DID version succeeds for the same records and otherwise wraps the account error. -/
theorem C04_did_keysecure {E : Env} (pw : Str) (ks : KeySecure) :
    (∀ a : Account E, DID.fromKeysecure E pw ks = .ok ⟨a⟩ ↔ Account.fromKeysecure E pw ks = .ok a) ∧
    (∀ e, Account.fromKeysecure E pw ks = .error e →
      DID.fromKeysecure E pw ks = .error (.invalidKeysecure e.display)) := by
  unfold DID.fromKeysecure
  constructor
  · intro a
    cases Account.fromKeysecure E pw ks with
    | ok b => simp
    | error e => simp
  · intro e h; rw [h]

/-- C04: a record restores under a second password only if the AEAD accepts it under the key derived from that
second password. -/
theorem C04_wrong_password {E : Env} (pw' : Str) (ks : KeySecure) (a : Account E)
    (h : Account.fromKeysecure E pw' ks = .ok a) :
    ∃ cipher nonce key plain, IsHexAny cipher ks.cipherText ∧ IsHexAny nonce ks.nonce ∧
      E.kdf ks.kdfParams pw' (utf8 ks.salt) = .ok key ∧ E.aeadDec key nonce cipher = .ok plain := by
  obtain ⟨pem, ⟨c, n, k, p, h1, h2, _, h3, h4, _⟩, _⟩ := (C04_keysecure_accept_iff pw' ks a).mp h
  exact ⟨c, n, k, p, h1, h2, h3, h4⟩

/-- `C04_wrong_password`, `C04_keysecure_errors`: a record for the password `pw`, opened with it, refused with another password, and refused with a short nonce. -/
example : ∃ ks : KeySecure, (Verification.Pairs.mk (E := Toy.env) [] (9 : UInt8)).buildKeysecure
      ⟨"salt".toList, List.replicate 24 5, rfl⟩ "pw".toList = .ok ks ∧
    Account.fromKeysecure Toy.env "pw".toList ks = .ok ⟨(9 : UInt8)⟩ ∧
    Account.fromKeysecure Toy.env "px".toList ks = .error (.decodeError "aead".toList) ∧
    DID.fromKeysecure Toy.env "px".toList ks = .error (.invalidKeysecure "unable to decode: aead".toList) ∧
    Account.fromKeysecure Toy.env "pw".toList { ks with nonce := "0505".toList } =
      .error (.decodeError "unable to decode nonce".toList) :=
  ⟨_, rfl, rfl, rfl, rfl, rfl⟩

/-! ### C03 -/

/-- C03: an exported key is restored with the same password. -/
theorem C03_keysecure_restore {E : Env} (P : E.PemLaw) (A : E.AeadLaw) (a : Account E) (pub : Str)
    (r : ExportRandom) (pw : Str) (ks : KeySecure)
    (h : (Verification.Pairs.mk (E := E) pub a.privkey).buildKeysecure r pw = .ok ks) :
    Account.fromKeysecure E pw ks = .ok a ∧ DID.fromKeysecure E pw ks = .ok ⟨a⟩ ∧
      ∀ d, DID.fromKeysecure E pw ks = .ok d → d.identity = (DID.mk a).identity := by
  have key : Account.fromKeysecure E pw ks = .ok a := by
    unfold Verification.Pairs.buildKeysecure at h
    simp only [Account.privkey] at h
    cases hp : E.edPem (E.edPriv a.pair) with
    | error m => rw [hp] at h; cases h
    | ok pem =>
      rw [hp] at h
      simp only at h
      cases hx : exportKeySecure E r (utf8Encode pem) pw with
      | error m => rw [hx] at h; cases h
      | ok ks' =>
        rw [hx] at h; cases h
        unfold exportKeySecure at hx
        simp only [bind, Except.bind] at hx
        cases hk : E.kdf E.kdfDefault pw (utf8Encode r.salt) with
        | error m => rw [hk] at hx; cases hx
        | ok k =>
          rw [hk] at hx
          simp only at hx
          cases hc : E.aeadEnc k r.nonce (utf8Encode pem) with
          | error m => rw [hc] at hx; cases hx
          | ok c =>
            rw [hc] at hx; cases hx
            refine (C04_keysecure_accept_iff _ _ _).mpr ⟨pem, ⟨c, r.nonce, k, utf8Encode pem, ?_, ?_, r.nonce_len,
              ?_, A _ _ _ _ hc, (utf8_eq _).symm⟩, P _ _ hp⟩
            · exact (hexDecode_iff _ _).mp (hexDecode_encode _)
            · exact (hexDecode_iff _ _).mp (hexDecode_encode _)
            · rw [utf8_eq]; exact hk
  have key' := (C04_did_keysecure (E := E) pw ks).1 a |>.mpr key
  refine ⟨key, key', ?_⟩
  intro d hd
  rw [key'] at hd; cases hd; rfl

example : ∃ ks, (Verification.Pairs.mk (E := Toy.env) [] (Account.new Toy.env (9 : UInt8)).privkey).buildKeysecure
    ⟨"salt".toList, List.replicate 24 5, rfl⟩ "pw".toList = .ok ks := ⟨_, rfl⟩

/-! ### C05 -/

/-- C05: equal DID strings come from equal keys, or exhibit a collision. -/
theorem C05_did_identifies_key {E : Env} (d₁ d₂ : DID E) (i₁ i₂ : Identity E) (h₁ : d₁.identity = .ok i₁)
    (h₂ : d₂.identity = .ok i₂) (h : i₁.value = i₂.value) :
    let b₁ := E.edPubBytes d₁.account.pubkey
    let b₂ := E.edPubBytes d₂.account.pubkey
    b₁ = b₂ ∨ (b₁ ≠ b₂ ∧ E.sha384 b₁ = E.sha384 b₂) ∨
      (E.sha384 b₁ ≠ E.sha384 b₂ ∧ E.blake3 (E.sha384 b₁) = E.blake3 (E.sha384 b₂)) := by
  intro b₁ b₂
  obtain ⟨_, x₁, p₁, g₁, k₁, _⟩ := identity_isDid d₁
  obtain ⟨_, x₂, p₂, g₂, k₂, _⟩ := identity_isDid d₂
  rw [h₁] at g₁; rw [h₂] at g₂
  cases g₁; cases g₂
  have hp : p₁ = p₂ := by
    have := h
    rw [k₁.did_eq, k₂.did_eq] at this
    exact List.append_cancel_left this
  have hx : x₁ = x₂ := by
    have a := k₁.payload_eq.unique
    have b := k₂.payload_eq.unique
    rw [hp, b] at a
    have := multibaseEncode58_injective a
    rw [utf8_eq, utf8_eq] at this
    exact (utf8Encode_injective this).symm
  have hb : E.blake3 (E.sha384 b₁) = E.blake3 (E.sha384 b₂) := by
    have a := k₁.hex_eq.unique
    have b := k₂.hex_eq.unique
    rw [hx, b] at a
    exact (hexEncode_injective a).symm
  by_cases e1 : b₁ = b₂
  · exact .inl e1
  · by_cases e2 : E.sha384 b₁ = E.sha384 b₂
    · exact .inr (.inl ⟨e1, e2⟩)
    · exact .inr (.inr ⟨e2, hb⟩)

/-- C05: two different keys have different DIDs unless one of the two hashes collides on their serialisations.
Nothing is assumed of the hashes on other inputs. -/
theorem C05_distinct_keys {E : Env} (L : E.EdLaws) (d₁ d₂ : DID E) (i₁ i₂ : Identity E) (h₁ : d₁.identity = .ok i₁)
    (h₂ : d₂.identity = .ok i₂) (hne : d₁.account.pubkey ≠ d₂.account.pubkey)
    (h384 : E.sha384 (E.edPubBytes d₁.account.pubkey) = E.sha384 (E.edPubBytes d₂.account.pubkey) →
      E.edPubBytes d₁.account.pubkey = E.edPubBytes d₂.account.pubkey)
    (hb3 : E.blake3 (E.sha384 (E.edPubBytes d₁.account.pubkey)) = E.blake3 (E.sha384 (E.edPubBytes d₂.account.pubkey)) →
      E.sha384 (E.edPubBytes d₁.account.pubkey) = E.sha384 (E.edPubBytes d₂.account.pubkey)) :
    i₁.value ≠ i₂.value := by
  intro h
  have hb : E.edPubBytes d₁.account.pubkey = E.edPubBytes d₂.account.pubkey := by
    rcases C05_did_identifies_key d₁ d₂ i₁ i₂ h₁ h₂ h with h | ⟨h1, h2⟩ | ⟨h1, h2⟩
    · exact h
    · exact absurd (h384 h2) h1
    · exact absurd (hb3 h2) h1
  have := congrArg E.edPubOfBytes hb
  rw [L.pub_bytes, L.pub_bytes] at this
  exact hne (Option.some.inj this)

/-- `C05_did_identifies_key`: where SHA-384 is broken, two keys with one DID. -/
example : ∃ i₁ i₂ : Identity { Toy.env with sha384 := fun _ => List.replicate 48 0 },
    (DID.mk (E := { Toy.env with sha384 := fun _ => List.replicate 48 0 }) ⟨(1 : UInt8)⟩).identity = .ok i₁ ∧
    (DID.mk (E := { Toy.env with sha384 := fun _ => List.replicate 48 0 }) ⟨(2 : UInt8)⟩).identity = .ok i₂ ∧ i₁.value = i₂.value :=
  ⟨_, _, rfl, rfl, rfl⟩

/-- Two toy keys: their DIDs differ. -/
example (i₁ i₂ : Identity Toy.env) (h₁ : (DID.mk (E := Toy.env) ⟨(1 : UInt8)⟩).identity = .ok i₁)
    (h₂ : (DID.mk (E := Toy.env) ⟨(2 : UInt8)⟩).identity = .ok i₂) : i₁.value ≠ i₂.value :=
  C05_distinct_keys Toy.edLaws _ _ i₁ i₂ h₁ h₂ (show (1 : UInt8) ≠ 2 by decide)
    (fun h => absurd h (by decide +kernel)) (fun h => absurd h (by decide +kernel))

/-! ### C07 -/

theorem param_clean {k uri v : Str} (h : param k uri = some v) : '?' ∉ v ∧ '&' ∉ v ∧ '=' ∉ v := by
  unfold param at h
  have hm := List.mem_of_getLast? h
  obtain ⟨seg, hseg, hv⟩ := List.mem_filterMap.mp hm
  rw [← splitOn_core] at hseg
  unfold segmentValue at hv
  split at hv
  · cases hv
    have sub1 : ∀ c ∈ before '=' (after '=' seg), c ∈ seg := by
      intro c hc
      have h1 := (List.takeWhile_sublist _).subset hc
      exact (List.dropWhile_sublist _).subset (List.mem_of_mem_drop h1)
    have sub2 : ∀ c ∈ seg, c ∈ before '?' (after '?' uri) := by
      intro c hc
      rw [← joinWith_splitOn '&' (before '?' (after '?' uri))]
      exact mem_joinWith hseg hc
    refine ⟨fun m => before_not_mem '?' _ (sub2 _ (sub1 _ m)), fun m => splitOn_no_sep _ _ _ hseg (sub1 _ m),
      before_not_mem '=' _⟩
  · cases hv
where
  mem_joinWith {sep : Char} {l : List Str} {s : Str} {c : Char} (hs : s ∈ l) (hc : c ∈ s) : c ∈ joinWith sep l := by
    induction l with
    | nil => cases hs
    | cons a l ih =>
      cases l with
      | nil => simp at hs; subst hs; exact hc
      | cons b l =>
        rw [joinWith]
        rcases List.mem_cons.mp hs with rfl | hs
        · simp [hc]
        · have := ih hs; simp [this]

theorem before_append {sep : Char} {x : Str} (hx : sep ∉ x) (y : Str) : before sep (x ++ sep :: y) = x := by
  unfold before
  rw [List.takeWhile_append_of_pos (by intro c hc; simp; rintro rfl; exact hx hc)]
  simp

theorem before_self {sep : Char} {x : Str} (hx : sep ∉ x) : before sep x = x := by
  rcases split_cases sep x with ⟨_, h, _⟩ | ⟨h, _, _⟩
  · exact h
  · rw [h] at hx; simp at hx

theorem after_append {sep : Char} {x : Str} (hx : sep ∉ x) (y : Str) : after sep (x ++ sep :: y) = y := by
  unfold after
  rw [List.dropWhile_append_of_pos (by intro c hc; simp; rintro rfl; exact hx hc)]
  simp

theorem segmentValue_assign {k k' v : Str} (hk : '=' ∉ k') (hv : '=' ∉ v) :
    segmentValue k (k' ++ '=' :: v) = if k' = k then some v else none := by
  unfold segmentValue
  rw [before_append hk, after_append hk, before_self hv]
  simp

/-- The values of a `Params` that can travel in a URI. -/
def Clean (v : Option Str) : Prop := ∀ t, v = some t → '?' ∉ t ∧ '&' ∉ t ∧ '=' ∉ t

/-- C07: the round trip holds exactly for values without `?`, `&` and `=`. -/
theorem C07_uri_roundtrip {E : Env} (d : DID E) (i : Identity E) (hi : d.identity = .ok i) (p : Params)
    (uri : Str) (h : d.buildUri (some p) = .ok uri) :
    DID.parseUri uri = some (.ok (i.value, p)) ↔ Clean p.address ∧ Clean p.hl := by
  rw [parseUri_spec]
  constructor
  · intro e
    simp only [Option.some.injEq, Except.ok.injEq, Prod.mk.injEq] at e
    obtain ⟨_, rfl⟩ := e
    exact ⟨fun t ht => param_clean ht, fun t ht => param_clean ht⟩
  · rintro ⟨ha, hh⟩
    obtain ⟨i', hi', _, h0, h1, h2, h3⟩ := C10_build_uri d
    rw [hi] at hi'; cases hi'
    obtain ⟨_, x, y, hi', hd, _⟩ := identity_isDid d
    rw [hi] at hi'; cases hi'
    have hq := (did_safe hd).1
    have comm : ∀ q : Str, '?' ∉ q →
        before '?' (i.value ++ '?' :: q) = i.value ∧ ∀ k, param k (i.value ++ '?' :: q) =
          ((splitOn '&' q).filterMap (segmentValue k)).getLast? := by
      intro q hq'
      refine ⟨before_append hq _, fun k => ?_⟩
      unfold param
      rw [after_append hq, before_self hq', splitOn_core]
    have amp : ∀ (k v : Str) (c : Char), c ∉ k → c ≠ '=' → c ∉ v → c ∉ k ++ '=' :: v := by
      intro k v c h1 h2 h3
      simp [h1, h2, h3]
    obtain ⟨a, hl⟩ := p
    cases a with
    | none =>
      cases hl with
      | none => rw [h0] at h; cases h
      | some hv =>
        obtain ⟨c1, c2, c3⟩ := hh hv rfl
        rw [h2] at h
        have eu : uri = i.value ++ '?' :: ("hl".toList ++ '=' :: hv) := by
          cases h; simp
        obtain ⟨b1, b2⟩ := comm ("hl".toList ++ '=' :: hv) (amp _ _ _ (by decide) (by decide) c1)
        rw [eu, b1, b2, b2, splitOn_of_not_mem (amp _ _ _ (by decide) (by decide) c2)]
        simp only [List.filterMap_cons, List.filterMap_nil, segmentValue_assign (by decide : '=' ∉ "hl".toList) c3]
        rfl
    | some av =>
      obtain ⟨d1, d2, d3⟩ := ha av rfl
      cases hl with
      | none =>
        rw [h1] at h
        have eu : uri = i.value ++ '?' :: ("address".toList ++ '=' :: av) := by
          cases h; simp
        obtain ⟨b1, b2⟩ := comm ("address".toList ++ '=' :: av) (amp _ _ _ (by decide) (by decide) d1)
        rw [eu, b1, b2, b2, splitOn_of_not_mem (amp _ _ _ (by decide) (by decide) d2)]
        simp only [List.filterMap_cons, List.filterMap_nil,
          segmentValue_assign (by decide : '=' ∉ "address".toList) d3]
        rfl
      | some hv =>
        obtain ⟨c1, c2, c3⟩ := hh hv rfl
        rw [h3] at h
        have eu : uri = i.value ++ '?' :: (("address".toList ++ '=' :: av) ++ '&' :: ("hl".toList ++ '=' :: hv)) := by
          cases h; simp
        obtain ⟨b1, b2⟩ := comm (("address".toList ++ '=' :: av) ++ '&' :: ("hl".toList ++ '=' :: hv)) (by
          have := amp "address".toList av '?' (by decide) (by decide) d1
          have := amp "hl".toList hv '?' (by decide) (by decide) c1
          simp only [List.mem_append, List.mem_cons, not_or] at *
          exact ⟨by assumption, by decide, by assumption⟩)
        rw [eu, b1, b2, b2, splitOn_append_sep (amp _ _ _ (by decide) (by decide) d2),
          splitOn_of_not_mem (amp _ _ _ (by decide) (by decide) c2)]
        simp only [List.filterMap_cons, List.filterMap_nil,
          segmentValue_assign (by decide : '=' ∉ "hl".toList) c3,
          segmentValue_assign (by decide : '=' ∉ "address".toList) d3]
        rfl

/-- C07: every `Params` with a field builds a URI, so the round trip theorem applies to all of them. -/
theorem C07_builds {E : Env} (d : DID E) (p : Params) (h : p.address ≠ none ∨ p.hl ≠ none) :
    ∃ uri, d.buildUri (some p) = .ok uri := by
  obtain ⟨_, _, _, _, h1, h2, h3⟩ := C10_build_uri d
  obtain ⟨a, hl⟩ := p
  cases a <;> cases hl
  · simp at h
  · exact ⟨_, h2 _⟩
  · exact ⟨_, h1 _⟩
  · exact ⟨_, h3 _ _⟩

theorem clean_sample : Clean (some "/ip4/127.0.0.1/tcp/80".toList) ∧ ¬ Clean (some "zQm=".toList) := by
  constructor
  · intro t h; cases h; decide +kernel
  · intro h; exact (h _ rfl).2.2 (by decide +kernel)

/-- `C07_builds`, `C07_uri_roundtrip`: parameters that survive and parameters that do not. -/
example : ∃ (d : DID Toy.env) (i : Identity Toy.env) (u u' : Str), d.identity = .ok i ∧
    d.buildUri (some { address := some "/ip4/127.0.0.1/tcp/80".toList, hl := none }) = .ok u ∧
    DID.parseUri u = some (.ok (i.value, { address := some "/ip4/127.0.0.1/tcp/80".toList, hl := none })) ∧
    d.buildUri (some { address := none, hl := some "zQm=".toList }) = .ok u' ∧
    DID.parseUri u' ≠ some (.ok (i.value, { address := none, hl := some "zQm=".toList })) := by
  obtain ⟨i, hi, _⟩ := C10_build_uri (DID.mk (Account.new Toy.env (7 : UInt8)))
  obtain ⟨u, hu⟩ := C07_builds (DID.mk (Account.new Toy.env (7 : UInt8)))
    { address := some "/ip4/127.0.0.1/tcp/80".toList, hl := none } (.inl (by simp))
  obtain ⟨u', hu'⟩ := C07_builds (DID.mk (Account.new Toy.env (7 : UInt8))) { address := none, hl := some "zQm=".toList } (.inr (by simp))
  exact ⟨_, i, u, u', hi, hu, (C07_uri_roundtrip _ i hi _ u hu).mpr ⟨clean_sample.1, fun _ h => nomatch h⟩, hu',
    fun h => clean_sample.2 ((C07_uri_roundtrip _ i hi _ u' hu').mp h).2⟩

end Verif.Props
