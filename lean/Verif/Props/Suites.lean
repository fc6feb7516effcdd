import Verif.Props.Identity
import Verif.Props.Pem

/-
C88: published keys and the key suites named by the documents (core/src/doc/mod.rs:46-109, core/src/keys/verification.rs:75-88,
core/src/keys/agreement.rs:74-87). The contexts `https://w3id.org/security/suites/ed25519-2020/v1` and
`https://w3id.org/security/suites/x25519-2020/v1` define `publicKeyMultibase` as the base58btc multibase text of a multicodec
prefix and the 32 bytes of the key.
-/

namespace Verif.Spec
open Verif

/-- The multicodec prefix of a kind of key: `ed25519-pub` (0xed) or `x25519-pub` (0xec), as a varint. -/
def suiteCode (type : Str) : Option Bytes :=
  if type = "Ed25519VerificationKey2020".toList then some [0xed, 0x01]
  else if type = "X25519KeyAgreementKey2020".toList then some [0xec, 0x01]
  else none

/-- `publicKeyMultibase` of a key by the suites. -/
def IsSuiteKey (type : Str) (raw : Bytes) (t : Str) : Prop :=
  ∃ code, suiteCode type = some code ∧ raw.length = 32 ∧ IsMultibase58 (code ++ raw) t

end Verif.Spec

namespace Verif.Props
open Verif Spec

theorem suiteCode_cases {type : Str} {code : Bytes} (h : suiteCode type = some code) : code = [0xed, 0x01] ∨ code = [0xec, 0x01] := by
  unfold suiteCode at h
  split at h
  · cases h; exact .inl rfl
  · split at h
    · cases h; exact .inr rfl
    · cases h

theorem hexAny_ascii {b : Bytes} {t : Str} (h : IsHexAny b t) : t.length = 2 * b.length ∧ ∀ c ∈ t, c.toNat < 128 := by
  have hl := h.len
  rw [List.length_map] at hl
  refine ⟨hl, fun c hc => ?_⟩
  have hm : lowerHex c ∈ t.map lowerHex := List.mem_map_of_mem hc
  obtain ⟨j, hj⟩ := List.mem_iff_getElem?.mp hm
  have hjl : j < 2 * b.length := by
    have := (List.getElem?_eq_some_iff.mp hj).1
    rw [List.length_map] at this; omega
  have digit : lowerHex c ∈ hexDigits := by
    have hx : b[j / 2]? = some (b[j / 2]'(by omega)) := List.getElem?_eq_getElem _
    rcases Nat.mod_two_eq_zero_or_one j with e | e
    · have := h.hi (j / 2) _ hx
      rw [show 2 * (j / 2) = j by omega, hj] at this
      exact List.mem_of_getElem? this.symm
    · have := h.lo (j / 2) _ hx
      rw [show 2 * (j / 2) + 1 = j by omega, hj] at this
      exact List.mem_of_getElem? this.symm
  have small : ∀ d ∈ hexDigits, d.toNat < 128 := by decide
  have := small _ digit
  unfold lowerHex at this
  split at this <;> omega

theorem utf8_ascii {t : Str} (h : ∀ c ∈ t, c.toNat < 128) : ∀ x ∈ utf8 t, x.toNat < 128 := by
  rw [utf8_eq]
  induction t with
  | nil => simp
  | cons c t ih =>
    rw [utf8Encode_cons, utf8Encode_ascii c (h c (by simp))]
    intro x hx
    rcases List.mem_append.mp hx with hx | hx
    · rw [List.mem_singleton.mp hx]
      have := h c (by simp)
      show (UInt8.ofNat _).toNat < 128
      rw [UInt8.toNat_ofNat']; omega
    · exact ih (fun c hc => h c (by simp [hc])) x hx

theorem holdsHex_bytes {E : Env} {t : Str} {raw bytes : Bytes} {base : MBase} (h : HoldsHex E t raw) (m : IsMultibase E base bytes t) :
    bytes.length = 2 * raw.length ∧ ∀ x ∈ bytes, x.toNat < 128 := by
  obtain ⟨b', hex, m', hx⟩ := h
  rw [← mbDecode_iff] at m m'
  rw [m] at m'
  simp only [Option.some.injEq, Prod.mk.injEq] at m'
  obtain ⟨_, rfl⟩ := m'
  obtain ⟨h1, h2⟩ := hexAny_ascii hx
  refine ⟨by rw [utf8_length_of_ascii h2, h1], utf8_ascii h2⟩

theorem hexAny_of {b : Bytes} {t : Str} (h : IsHex b t) : IsHexAny b t := by
  rw [← hexDecode_iff, h.unique, hexDecode_encode]

/-- A decoded key is read from the bytes of a hex text. -/
theorem decoded_holds {E : Env} (p : Primary) (k : PublicKeyDecoded E) (h : p.decodePubKey E = .ok k) :
    (∃ raw k', HoldsHex E p.multibase raw ∧ E.edPubOfBytes raw = some k') ∨ ∃ raw k', HoldsHex E p.multibase raw ∧ E.dhPubOfBytes raw = some k' := by
  cases k with
  | edDSA k =>
    obtain ⟨_, raw, h1, h2⟩ := (C15_eddsa p k).mp h
    exact .inl ⟨raw, k, h1, h2⟩
  | ecdh k =>
    obtain ⟨_, raw, h1, h2⟩ := (C15_ecdh p k).mp h
    exact .inr ⟨raw, k, h1, h2⟩

/-- C88: an entry with its key as the suites say is refused, in whichever base it is written and whatever the key. -/
theorem C88_refused {E : Env} (p : Primary) (type : Str) (code raw : Bytes) (hc : suiteCode type = some code) (base : MBase)
    (h : IsMultibase E base (code ++ raw) p.multibase) : ∃ m, p.decodePubKey E = .error (.decodePubKeyError m) := by
  cases hd : p.decodePubKey E with
  | error e =>
    obtain ⟨m, rfl⟩ := (C15_errors p).1 e hd
    exact ⟨m, rfl⟩
  | ok k =>
    exfalso
    have key : ∀ raw', HoldsHex E p.multibase raw' → False := by
      intro raw' hr
      have := (holdsHex_bytes hr h).2
      rcases suiteCode_cases hc with rfl | rfl
      · exact absurd (this 0xed (by simp)) (by decide)
      · exact absurd (this 0xec (by simp)) (by decide)
    rcases decoded_holds p k hd with ⟨r, _, hr, _⟩ | ⟨r, _, hr, _⟩ <;> exact key r hr

/-- C88: an entry with the 32 bytes of the key alone is refused as well, if keys have 32 bytes. -/
theorem C88_raw {E : Env} (hed : ∀ b k, E.edPubOfBytes b = some k → b.length = 32) (hdh : ∀ b k, E.dhPubOfBytes b = some k → b.length = 32)
    (p : Primary) (raw : Bytes) (hr : raw.length = 32) (base : MBase) (h : IsMultibase E base raw p.multibase) :
    ∃ m, p.decodePubKey E = .error (.decodePubKeyError m) := by
  cases hd : p.decodePubKey E with
  | error e =>
    obtain ⟨m, rfl⟩ := (C15_errors p).1 e hd
    exact ⟨m, rfl⟩
  | ok k =>
    exfalso
    rcases decoded_holds p k hd with ⟨r, k', hh, hk⟩ | ⟨r, k', hh, hk⟩
    · have := (holdsHex_bytes hh h).1; have := hed r k' hk; omega
    · have := (holdsHex_bytes hh h).1; have := hdh r k' hk; omega

/-- C88: no entry the library writes has its key as the suites say: none is that of any key, of either kind. -/
theorem C88_written {E : Env} (v : Str) (ops : List (IdOp E)) :
    ∀ p ∈ (idRun v ops).toDoc.authentication.getD [] ++ (idRun v ops).toDoc.assertion.getD [],
      (∃ code, suiteCode p.verificationType = some code) ∧ ∀ type raw, ¬ IsSuiteKey type raw p.multibase := by
  obtain ⟨_, _, _, _, h5, h6, _⟩ := C12_document v ops
  have text : ∀ b t type raw, IsKeyText b t → ¬ IsSuiteKey type raw t := by
    rintro b t type raw ⟨hex, hx, m⟩ ⟨code, hc, _, m'⟩
    have hh : HoldsHex E t b := ⟨_, hex, .base58 m, hexAny_of hx⟩
    have := (holdsHex_bytes hh (.base58 m')).2
    rcases suiteCode_cases hc with rfl | rfl
    · exact absurd (this 0xed (by simp)) (by decide)
    · exact absurd (this 0xec (by simp)) (by decide)
  have key : ∀ (f g : Str) (o : Option (MethodSeed E)) (l : Option (List Primary)), EntriesIs E v f g o l → ∀ p ∈ l.getD [],
      (∃ code, suiteCode p.verificationType = some code) ∧ ∀ type raw, ¬ IsSuiteKey type raw p.multibase := by
    intro f g o l he p hp
    cases o with
    | none => cases he; simp at hp
    | some s =>
      obtain ⟨l, rfl, ⟨kv, ka, rfl, k1, k2⟩⟩ := he
      rcases List.mem_pair.mp hp with rfl | rfl
      · exact ⟨⟨_, rfl⟩, fun type raw => text _ _ _ _ k1⟩
      · exact ⟨⟨_, rfl⟩, fun type raw => text _ _ _ _ k2⟩
  intro p hp
  rcases List.mem_append.mp hp with hp | hp
  · exact key _ _ _ _ h5 p hp
  · exact key _ _ _ _ h6 p hp

/-- The text of the key `0x00 … 0x1f` by the suite, and the library's text of the same key. -/
example : let key : Bytes := (List.range 32).map UInt8.ofNat
    IsSuiteKey "Ed25519VerificationKey2020".toList key (multibaseEncode58 ([0xed, 0x01] ++ key)) ∧
    multibaseEncode58 ([0xed, 0x01] ++ key) = "z6MkeTGwHmLmuCmgg4ABYhzWVh6ZX7hTwWt8gguAretUfc9c".toList ∧
    IsKeyText key (multibaseEncode58 (utf8 (hexEncode key))) := by
  refine ⟨⟨_, rfl, by decide +kernel, multibaseEncode58_spec _⟩, by decide +kernel, _, hexEncode_spec _, multibaseEncode58_spec _⟩

/-- An entry with a key of the suite, and the refusal. -/
example : ∃ m, (Primary.mk "did:x#k".toList "did:x".toList "Ed25519VerificationKey2020".toList
    "z6MkeTGwHmLmuCmgg4ABYhzWVh6ZX7hTwWt8gguAretUfc9c".toList).decodePubKey Toy.env = .error (.decodePubKeyError m) :=
  C88_refused (E := Toy.env) _ "Ed25519VerificationKey2020".toList _ ((List.range 32).map UInt8.ofNat) rfl .base58Btc
    (.base58 (isMultibase58_iff.mpr (by decide +kernel)))

theorem standard_lengths : (∀ b k, standard.edPubOfBytes b = some k → b.length = 32) ∧
    ∀ b k, standard.dhPubOfBytes b = some k → b.length = 32 := by
  constructor
  · intro b k h
    by_contra hn
    have hp : Ed25519.pointDecompress b = none := by unfold Ed25519.pointDecompress; rw [if_pos hn]
    have : (if h : Ed25519.pointDecompress b ≠ none then some ⟨b, h⟩ else none) = some k := h
    rw [dif_neg (not_not.mpr hp)] at this
    cases this
  · intro b k h
    by_contra hn
    have : (if h : b.length = 32 then some (⟨b, h⟩ : Bytes32) else none) = some k := h
    rw [dif_neg hn] at this
    cases this

/-- Every text of 32 bytes alone is refused where the algorithms are the ones in use. -/
example (raw : Bytes) (h : raw.length = 32) (type : Str) : ∃ m,
    (Primary.mk "did:x#k".toList "did:x".toList type (multibaseEncode58 raw)).decodePubKey standard = .error (.decodePubKeyError m) :=
  C88_raw standard_lengths.1 standard_lengths.2 _ raw h .base58Btc (.base58 (multibaseEncode58_spec _))

/-- A history with four entries. -/
example : ((idRun "did:x".toList standardOps).toDoc.authentication.getD [] ++
    (idRun "did:x".toList standardOps).toDoc.assertion.getD []).length = 4 := rfl

end Verif.Props
