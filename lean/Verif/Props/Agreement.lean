import Mathlib.Data.Nat.Digits.Defs
import Verif.Concrete.X25519Laws
import Verif.Props.Pem

/-
C85: what the agreement keys are for. An identity makes a pair for key agreement in each slot and publishes its public
key ("used to generate the shared secret through ECDH", core/src/identity/mod.rs:11-15). The code never computes a shared
secret; the theorems say that the holder of one exported secret and the holder of another compute the same one from the
keys published in each other's documents, and which element of the group of curve25519 it is.
-/

namespace Verif.Spec

/-- The number with these bytes, lowest first. -/
def little (b : Bytes) : Nat := Nat.ofDigits 256 (b.map UInt8.toNat)

/-- `decodeScalar25519` of RFC 7748, section 5, bit by bit: the three lowest bits are cleared, bit 254 is the highest and
set, the others are those of the secret. -/
structure IsScalar (s : Bytes) (n : Nat) : Prop where
  low : ∀ i < 3, n.testBit i = false
  mid : ∀ i, 3 ≤ i → i < 254 → n.testBit i = (little s).testBit i
  top : n.testBit 254 = true
  high : ∀ i, 255 ≤ i → n.testBit i = false

/-- 32 bytes, lowest first, of an element of the field of `2 ^ 255 - 19` elements. -/
def IsU (b : Bytes) (x : Ed25519.F) : Prop := b.length = 32 ∧ little b = x.val

/-- The order of the base point, RFC 7748, section 4.1. -/
def order25519 : Nat := 0x1000000000000000000000000000000014def9dea2f79cd65812631a5cf5d3ed

end Verif.Spec

namespace Verif.X25519
open Spec
open Blake3 (leVal leBytes leBytes_length)

theorem little_eq (b : Bytes) : little b = leVal b := by
  unfold little
  induction b with
  | nil => rfl
  | cons c b ih => rw [List.map_cons, Nat.ofDigits_cons, ih]; rfl

theorem isScalar (s : Bytes) : IsScalar s (decodeScalar s) := by
  have hlt : leVal s % 2 ^ 254 / 8 * 8 < 2 ^ 254 := by
    have : leVal s % 2 ^ 254 < 2 ^ 254 := Nat.mod_lt _ (by norm_num)
    omega
  have e : decodeScalar s = 2 ^ 254 * 1 + leVal s % 2 ^ 254 / 8 * 8 := by unfold decodeScalar; omega
  have hb : ∀ i, (decodeScalar s).testBit i =
      if i < 254 then decide (3 ≤ i) && (leVal s % 2 ^ 254).testBit i else (1 : Nat).testBit (i - 254) := by
    intro i
    rw [e, Nat.testBit_two_pow_mul_add _ hlt]
    split
    · rw [show leVal s % 2 ^ 254 / 8 * 8 = 2 ^ 3 * (leVal s % 2 ^ 254 / 2 ^ 3) by omega, Nat.testBit_two_pow_mul]
      by_cases h : 3 ≤ i
      · rw [Nat.testBit_div_two_pow, Nat.sub_add_cancel h]
      · simp [h]
    · rfl
  refine ⟨fun i hi => ?_, fun i h1 h2 => ?_, ?_, fun i hi => ?_⟩
  · rw [hb, if_pos (by omega)]
    simp; omega
  · rw [hb, if_pos h2, little_eq, Nat.testBit_mod_two_pow]
    simp [h1, h2]
  · rw [hb, if_neg (by omega)]; rfl
  · rw [hb, if_neg (by omega)]
    exact Nat.testBit_lt_two_pow (Nat.one_lt_two_pow (by omega))

theorem scalar_unique {s : Bytes} {n : Nat} (h : IsScalar s n) : n = decodeScalar s := by
  have g := isScalar s
  refine Nat.eq_of_testBit_eq fun i => ?_
  rcases Nat.lt_or_ge i 3 with hi | hi
  · rw [h.low i hi, g.low i hi]
  · rcases Nat.lt_or_ge i 254 with hj | hj
    · rw [h.mid i hi hj, g.mid i hi hj]
    · rcases Nat.lt_or_ge i 255 with hk | hk
      · rw [show i = 254 by omega, h.top, g.top]
      · rw [h.high i hk, g.high i hk]

theorem isU (x : Ed25519.F) : IsU (leBytes 32 x.val) x := by
  refine ⟨leBytes_length _ _, ?_⟩
  have := val_lt x
  rw [little_eq]
  exact Ed25519.leVal_leBytes (by rw [show 256 ^ 32 = 2 ^ 256 by norm_num]; omega)

end Verif.X25519

namespace Verif.Props
open Verif Spec

/-- C85: a public key is the u-coordinate of the multiple of the base point, in the group of points of curve25519, by the
scalar of the secret. -/
theorem C85_public {E : Env} (X : X25519Keys E) (k : E.DhKP) (n : Nat) (hn : IsScalar (E.dhSecret k) n) :
    IsU (E.dhPubBytes (E.dhPub k)) (uCoord (n • X25519.base)) := by
  rw [X.pub, X25519.publicKey_eq, X25519.scalar_unique hn]
  exact X25519.isU _

/-- A slot of an export and the slot of the document it belongs to. -/
def SameSlot (out : IdentityPrivateKeyPairs) (d : Doc) (p : PrivateKeyPairs) (l : List Primary) : Prop :=
  (out.authentication = some p ∧ d.authentication = some l) ∨ (out.assertion = some p ∧ d.assertion = some l)

/-- A secret for key agreement restored from an export with the password, and the entry of the document published for it. -/
def Restored (E : Env) (pw : Str) (out : IdentityPrivateKeyPairs) (d : Doc) (s : Bytes) (e : Primary) : Prop :=
  ∃ p l hex, SameSlot out d p l ∧ e ∈ l ∧ e.verificationType = "X25519KeyAgreementKey2020".toList ∧
    p.decryptAgreement E pw = .ok (utf8 hex) ∧ IsHex s hex

theorem restored_slot {E : Env} (A : E.AeadLaw) {v : Str} {ops : List (IdOp E)} {r : PrivateKeysRandom} {pw : Str}
    {out : IdentityPrivateKeyPairs} (h : (idRun v ops).buildPrivateKeys r pw = .ok out) {p : PrivateKeyPairs} :
    (out.authentication = some p ∨ out.assertion = some p) →
      (∃ l, SameSlot out (idRun v ops).toDoc p l) ∧
      ∀ l, SameSlot out (idRun v ops).toDoc p l → ∃ e k hex, e ∈ l ∧
        (∀ e' ∈ l, e'.verificationType = "X25519KeyAgreementKey2020".toList ↔ e' = e) ∧
        IsKeyText (E.dhPubBytes (E.dhPub k)) e.multibase ∧ p.decryptAgreement E pw = .ok (utf8 hex) ∧ IsHex (E.dhSecret k) hex := by
  obtain ⟨-, h2, h3⟩ := C14_private_keys A v ops r pw out h
  obtain ⟨-, _, _, _, a5, a6, _⟩ := C12_document v ops
  have slot : ∀ {s : Option (MethodSeed E)} {x : Option PrivateKeyPairs} {l : Option (List Primary)} {idV idA : Str},
      SlotDecrypts E pw s x → EntriesIs E v idV idA s l → x = some p → (∃ l', l = some l') ∧ ∀ l', l = some l' →
        ∃ e k hex, e ∈ l' ∧ (∀ e' ∈ l', e'.verificationType = "X25519KeyAgreementKey2020".toList ↔ e' = e) ∧
        IsKeyText (E.dhPubBytes (E.dhPub k)) e.multibase ∧ p.decryptAgreement E pw = .ok (utf8 hex) ∧ IsHex (E.dhSecret k) hex := by
    intro s x l idV idA hx hl hp
    cases s with
    | none => rw [show x = none from hx] at hp; cases hp
    | some s =>
      obtain ⟨p', pem, hex, b1, b2, b3, b4, b5⟩ := hx
      obtain ⟨l', e, ⟨kv, ka, el, k1, k2⟩⟩ := hl
      rw [hp] at b1
      cases b1
      subst el
      refine ⟨⟨_, e⟩, fun l'' e' => ?_⟩
      rw [e] at e'
      cases e'
      refine ⟨_, E.dhGenerate s.dh, hex, List.mem_cons_of_mem _ List.mem_cons_self, fun e' he => ?_, k2, b5, b3⟩
      rcases List.mem_cons.mp he with rfl | he
      · refine ⟨fun ht => absurd ht (show ¬ "Ed25519VerificationKey2020".toList = "X25519KeyAgreementKey2020".toList by decide), fun ht => ?_⟩
        have := congrArg Primary.verificationType ht
        exact absurd this (show ¬ "Ed25519VerificationKey2020".toList = "X25519KeyAgreementKey2020".toList by decide)
      · rcases List.mem_cons.mp he with rfl | he
        · exact ⟨fun _ => rfl, fun _ => rfl⟩
        · cases he
  intro hp
  have ha := fun hx => slot h2 a5 (show out.authentication = some p from hx)
  have hs := fun hx => slot h3 a6 (show out.assertion = some p from hx)
  constructor
  · rcases hp with hp | hp
    · obtain ⟨⟨l, hl⟩, -⟩ := ha hp
      exact ⟨l, .inl ⟨hp, hl⟩⟩
    · obtain ⟨⟨l, hl⟩, -⟩ := hs hp
      exact ⟨l, .inr ⟨hp, hl⟩⟩
  · rintro l (⟨h1, h2⟩ | ⟨h1, h2⟩)
    · exact (ha h1).2 l h2
    · exact (hs h1).2 l h2

theorem restored_iff {E : Env} (A : E.AeadLaw) {v : Str} {ops : List (IdOp E)} {r : PrivateKeysRandom} {pw : Str}
    {out : IdentityPrivateKeyPairs} (h : (idRun v ops).buildPrivateKeys r pw = .ok out) {s : Bytes} {e : Primary}
    (hr : Restored E pw out (idRun v ops).toDoc s e) :
    ∃ k, s = E.dhSecret k ∧ IsKeyText (E.dhPubBytes (E.dhPub k)) e.multibase ∧
      e.verificationType = "X25519KeyAgreementKey2020".toList := by
  obtain ⟨p, l, hex, hl, he, ht, hd, hx⟩ := hr
  obtain ⟨-, h2⟩ := restored_slot A h (p := p) (by rcases hl with ⟨h1, -⟩ | ⟨h1, -⟩ <;> simp [h1])
  obtain ⟨e', k, hex', g1, g2, g3, g4, g5⟩ := h2 l hl
  obtain rfl := (g2 e he).mp ht
  rw [g4] at hd
  have : hex' = hex := by
    rw [utf8_eq, utf8_eq] at hd
    exact utf8Encode_injective (Except.ok.inj hd)
  subst this
  refine ⟨k, ?_, g3, ht⟩
  rw [isHex_iff] at hx g5
  exact hexEncode_injective (hx.symm.trans g5)

/-- C85: every exported slot gives a secret for key agreement, of 32 bytes, and the document has an entry for it. -/
theorem C85_restored {E : Env} (X : X25519Keys E) (A : E.AeadLaw) (v : Str) (ops : List (IdOp E)) (r : PrivateKeysRandom)
    (pw : Str) (out : IdentityPrivateKeyPairs) (h : (idRun v ops).buildPrivateKeys r pw = .ok out) (p : PrivateKeyPairs)
    (hp : out.authentication = some p ∨ out.assertion = some p) :
    ∃ s e, s.length = 32 ∧ Restored E pw out (idRun v ops).toDoc s e := by
  obtain ⟨⟨l, hl⟩, h2⟩ := restored_slot A h hp
  obtain ⟨e, k, hex, g1, g2, g3, g4, g5⟩ := h2 l hl
  exact ⟨E.dhSecret k, e, X.length k, p, l, hex, hl, g1, (g2 e g1).mpr rfl, g4, g5⟩

/-- C85: two parties agree. Each restores a secret from their export and reads the key published in the other's document;
X25519 gives both of them the same 32 bytes: the u-coordinate of the multiple of the base point by the product of the two
scalars. It is never the all-zero value of RFC 7748, section 6.1. -/
theorem C85_agree {E : Env} (X : X25519Keys E) (A : E.AeadLaw) (v v' : Str) (ops ops' : List (IdOp E))
    (r r' : PrivateKeysRandom) (pw pw' : Str) (out out' : IdentityPrivateKeyPairs)
    (h : (idRun v ops).buildPrivateKeys r pw = .ok out) (h' : (idRun v' ops').buildPrivateKeys r' pw' = .ok out')
    (s s' : Bytes) (e e' : Primary) (hr : Restored E pw out (idRun v ops).toDoc s e)
    (hr' : Restored E pw' out' (idRun v' ops').toDoc s' e') :
    ∃ k k' n n', e.decodePubKey E = .ok (.ecdh k) ∧ e'.decodePubKey E = .ok (.ecdh k') ∧
      X25519.x25519 s (E.dhPubBytes k') = X25519.x25519 s' (E.dhPubBytes k) ∧
      IsScalar s n ∧ IsScalar s' n' ∧
      IsU (E.dhPubBytes k) (uCoord (n • X25519.base)) ∧ IsU (E.dhPubBytes k') (uCoord (n' • X25519.base)) ∧
      IsU (X25519.x25519 s (E.dhPubBytes k')) (uCoord ((n * n') • X25519.base)) ∧
      X25519.x25519 s (E.dhPubBytes k') ≠ List.replicate 32 0 := by
  obtain ⟨k, rfl, h1, ht⟩ := restored_iff A h hr
  obtain ⟨k', rfl, h1', ht'⟩ := restored_iff A h' hr'
  have Ld : E.DhLaw := (C81_laws (seed := fun _ => [])).2 X
  refine ⟨E.dhPub k, E.dhPub k', X25519.decodeScalar (E.dhSecret k), X25519.decodeScalar (E.dhSecret k'),
    (C15_ecdh _ _).mpr ⟨ht, _, isKeyText_holds h1, Ld _⟩, (C15_ecdh _ _).mpr ⟨ht', _, isKeyText_holds h1', Ld _⟩, ?_,
    X25519.isScalar _, X25519.isScalar _, C85_public X _ _ (X25519.isScalar _), C85_public X _ _ (X25519.isScalar _), ?_, ?_⟩
  · rw [X.pub, X.pub, X25519.shared_eq, X25519.shared_eq, Nat.mul_comm]
  · rw [X.pub, X25519.shared_eq]
    exact X25519.isU _
  · rw [X.pub]
    exact X25519.shared_ne _ _

/-- C85: two documents publish the same agreement key exactly when the scalars of the secrets are equal or add up to eight
times the order of the base point; and the holders then share the same secret with everybody else. -/
theorem C85_same {E : Env} (X : X25519Keys E) (A : E.AeadLaw) (v v' : Str) (ops ops' : List (IdOp E))
    (r r' : PrivateKeysRandom) (pw pw' : Str) (out out' : IdentityPrivateKeyPairs)
    (h : (idRun v ops).buildPrivateKeys r pw = .ok out) (h' : (idRun v' ops').buildPrivateKeys r' pw' = .ok out')
    (s s' : Bytes) (e e' : Primary) (hr : Restored E pw out (idRun v ops).toDoc s e)
    (hr' : Restored E pw' out' (idRun v' ops').toDoc s' e') (n n' : Nat) (hn : IsScalar s n) (hn' : IsScalar s' n') :
    (e.multibase = e'.multibase ↔ n = n' ∨ n + n' = 8 * order25519) ∧
    (e.multibase = e'.multibase → ∀ k : E.DhKP,
      X25519.x25519 s (E.dhPubBytes (E.dhPub k)) = X25519.x25519 s' (E.dhPubBytes (E.dhPub k))) := by
  obtain ⟨k, rfl, h1, ht⟩ := restored_iff A h hr
  obtain ⟨k', rfl, h1', ht'⟩ := restored_iff A h' hr'
  rw [X25519.scalar_unique hn, X25519.scalar_unique hn']
  have hq : order25519 = Ed25519.q := by decide +kernel
  have hk : e.multibase = e'.multibase ↔ X25519.publicKey (E.dhSecret k) = X25519.publicKey (E.dhSecret k') := by
    rw [← X.pub, ← X.pub]
    constructor
    · intro hm
      rw [hm] at h1
      exact keyText_inj h1 h1'
    · intro hm
      rw [h1.unique, h1'.unique, hm]
  constructor
  · rw [hk, X25519.publicKey_iff, hq]
  · intro hm k2
    have hm := hk.mp hm
    rw [X.pub, X25519.shared_eq, X25519.shared_eq, Nat.mul_comm, ← X25519.shared_eq, hm, X25519.shared_eq, Nat.mul_comm]

/-- C85: only someone who knows more than the published key finds the secret: `n` and `8 q - n` are the only scalars that
give the published key, so that at most two of the `2 ^ 251` scalars do. -/
theorem C85_scalars {E : Env} (X : X25519Keys E) (k : E.DhKP) (s : Bytes) (n m : Nat) (hn : IsScalar (E.dhSecret k) n)
    (hm : IsScalar s m) : E.dhPubBytes (E.dhPub k) = X25519.publicKey s ↔ m = n ∨ m = 8 * order25519 - n := by
  rw [X.pub, X25519.publicKey_iff, X25519.scalar_unique hn, X25519.scalar_unique hm]
  have hq : order25519 = Ed25519.q := by decide +kernel
  have h1 := X25519.scalar_lt (E.dhSecret k)
  have : 2 ^ 255 ≤ 8 * Ed25519.q := by decide +kernel
  rw [hq]
  omega

/-! ### Alice has the secret of RFC 7748, section 5.2, Bob that of section 6.1 -/

def aliceSecret : Bytes := X25519.hex "a546e36bf0527c9d3b16154b82465edd62144c0ac1fc5a18506a2244ba449ac4"
def bobSecret : Bytes := X25519.hex "5dab087e624a8a4b79e17f8b83800ee66f3bb1292618b6fd1c2f8b27ff88e0eb"

def aliceOps : List (IdOp standard) := [.auth ⟨sampleKey, (⟨aliceSecret, by decide +kernel⟩ : Bytes32)⟩]
def bobOps : List (IdOp standard) :=
  [.assertion ⟨sampleKey, (⟨bobSecret, by decide +kernel⟩ : Bytes32)⟩]

theorem alice_public : X25519.publicKey aliceSecret =
    X25519.hex "1c9fd88f45606d932a80c71824ae151d15d73e77de38e8e000852e614fae7019" := by decide +kernel

theorem bob_public : X25519.publicKey bobSecret =
    X25519.hex "de9edb7d7b7dc1b4d35b61c2ece435373f8343c85b78674dadfc7e146f882b4f" := by decide +kernel

theorem alice_bob : X25519.x25519 aliceSecret (X25519.publicKey bobSecret) =
    X25519.hex "709e32d6ae0a5731fea82113324fc01e686dc28cb7781e61487752faf875490c" := by
  rw [bob_public]
  decide +kernel

theorem standard_exports (v : Str) (ops : List (IdOp standard)) :
    ∃ out, (idRun v ops).buildPrivateKeys ⟨toyRandom, toyRandom, toyRandom, toyRandom⟩ "pw".toList = .ok out :=
  (C81_exports standard_texts standard_standard.actual v ops ⟨toyRandom, toyRandom, toyRandom, toyRandom⟩ "pw".toList).mpr
    ⟨fun _ => ⟨standard_derives _ _, standard_derives _ _⟩, fun _ => ⟨standard_derives _ _, standard_derives _ _⟩⟩

/-- The secret restored for a history is the one of its first call. -/
theorem standard_restored (v : Str) (ops : List (IdOp standard)) (out : IdentityPrivateKeyPairs)
    (h : (idRun v ops).buildPrivateKeys ⟨toyRandom, toyRandom, toyRandom, toyRandom⟩ "pw".toList = .ok out)
    (m : MethodSeed standard) (hm : firstAuth ops = some m ∨ firstAssertion ops = some m) :
    ∃ e, Restored standard "pw".toList out (idRun v ops).toDoc (standard.dhSecret (standard.dhGenerate m.dh)) e := by
  have A : standard.AeadLaw := (C78_laws standard_standard.actual).2
  obtain ⟨-, h2, h3⟩ := C14_private_keys A v ops _ _ out h
  obtain ⟨-, _, _, _, a5, a6, _⟩ := C12_document v ops
  rcases hm with hm | hm
  · rw [hm] at h2 a5
    obtain ⟨p, pem, hex, b1, b2, b3, b4, b5⟩ := h2
    obtain ⟨l, e, ⟨kv, ka, el, k1, k2⟩⟩ := a5
    subst el
    exact ⟨_, p, _, hex, .inl ⟨b1, e⟩, List.mem_cons_of_mem _ List.mem_cons_self, rfl, b5, b3⟩
  · rw [hm] at h3 a6
    obtain ⟨p, pem, hex, b1, b2, b3, b4, b5⟩ := h3
    obtain ⟨l, e, ⟨kv, ka, el, k1, k2⟩⟩ := a6
    subst el
    exact ⟨_, p, _, hex, .inr ⟨b1, e⟩, List.mem_cons_of_mem _ List.mem_cons_self, rfl, b5, b3⟩

/-- `C85_restored`, `C85_agree`: Alice's secret for authentication and Bob's for assertions give one shared
secret, `alice_bob`. -/
example : ∃ out out' e e' k k', (idRun "did:alice".toList aliceOps).buildPrivateKeys ⟨toyRandom, toyRandom, toyRandom, toyRandom⟩
      "pw".toList = .ok out ∧
    (idRun "did:bob".toList bobOps).buildPrivateKeys ⟨toyRandom, toyRandom, toyRandom, toyRandom⟩ "pw".toList = .ok out' ∧
    Restored standard "pw".toList out (idRun "did:alice".toList aliceOps).toDoc aliceSecret e ∧
    Restored standard "pw".toList out' (idRun "did:bob".toList bobOps).toDoc bobSecret e' ∧
    e.decodePubKey standard = .ok (.ecdh k) ∧ e'.decodePubKey standard = .ok (.ecdh k') ∧
    X25519.x25519 aliceSecret (standard.dhPubBytes k') = X25519.x25519 bobSecret (standard.dhPubBytes k) ∧
    X25519.x25519 aliceSecret (standard.dhPubBytes k') ≠ List.replicate 32 0 := by
  obtain ⟨out, h⟩ := standard_exports "did:alice".toList aliceOps
  obtain ⟨out', h'⟩ := standard_exports "did:bob".toList bobOps
  obtain ⟨e, he⟩ := standard_restored _ _ out h _ (.inl rfl)
  obtain ⟨e', he'⟩ := standard_restored _ _ out' h' _ (.inr rfl)
  obtain ⟨k, k', _, _, h1, h2, h3, -, -, -, -, -, h4⟩ := C85_agree standard_agreement (C78_laws standard_standard.actual).2 _ _ _ _
    _ _ _ _ out out' h h' _ _ e e' he he'
  exact ⟨out, out', e, e', k, k', h, h', he, he', h1, h2, h3, h4⟩

/-- `C85_public`: Alice's scalar. -/
example : IsScalar aliceSecret 0x449a44ba44226a50185afcc10a4c1462dd5e46824b15163b9d7c52f06be346a0 := by
  have : (0x449a44ba44226a50185afcc10a4c1462dd5e46824b15163b9d7c52f06be346a0 : Nat) = X25519.decodeScalar aliceSecret := by
    decide +kernel
  rw [this]
  exact X25519.isScalar _

def zeroSecret : Bytes := List.replicate 32 0
def twinSecret : Bytes := X25519.hex "689faee7d21893c0b2e6bc17f5cef7a600000000000000000000000000000000"

theorem zero_twin : X25519.decodeScalar zeroSecret + X25519.decodeScalar twinSecret = 8 * order25519 := by decide +kernel

/-- `C85_scalars`: two different secrets with the same public key. -/
example (k : standard.DhKP) (hk : standard.dhSecret k = zeroSecret) :
    standard.dhPubBytes (standard.dhPub k) = X25519.publicKey twinSecret :=
  (C85_scalars standard_agreement k twinSecret (X25519.decodeScalar zeroSecret) _ (by rw [hk]; exact X25519.isScalar _)
    (X25519.isScalar _)).mpr (.inr (by have := zero_twin; omega))

/-- `C85_same`: two identities with different secrets publish the same key; with Alice's secret they do not. -/
example : zeroSecret ≠ twinSecret ∧ ∀ (out out' out'' : IdentityPrivateKeyPairs) (e e' e'' : Primary) (ops ops' : List (IdOp standard)),
    (idRun "did:x".toList ops).buildPrivateKeys ⟨toyRandom, toyRandom, toyRandom, toyRandom⟩ "pw".toList = .ok out →
    (idRun "did:y".toList ops').buildPrivateKeys ⟨toyRandom, toyRandom, toyRandom, toyRandom⟩ "pw".toList = .ok out' →
    (idRun "did:alice".toList aliceOps).buildPrivateKeys ⟨toyRandom, toyRandom, toyRandom, toyRandom⟩ "pw".toList = .ok out'' →
    Restored standard "pw".toList out (idRun "did:x".toList ops).toDoc zeroSecret e →
    Restored standard "pw".toList out' (idRun "did:y".toList ops').toDoc twinSecret e' →
    Restored standard "pw".toList out'' (idRun "did:alice".toList aliceOps).toDoc aliceSecret e'' →
    e.multibase = e'.multibase ∧ e.multibase ≠ e''.multibase := by
  refine ⟨by decide +kernel, fun out out' out'' e e' e'' ops ops' h h' h'' g g' g'' => ⟨?_, ?_⟩⟩
  · exact (C85_same standard_agreement (C78_laws standard_standard.actual).2 _ _ _ _ _ _ _ _ out out' h h' _ _ e e' g g' _ _
      (X25519.isScalar _) (X25519.isScalar _)).1.mpr (.inr zero_twin)
  · intro hm
    have := (C85_same standard_agreement (C78_laws standard_standard.actual).2 _ _ _ _ _ _ _ _ out out'' h h'' _ _ e e'' g g'' _ _
      (X25519.isScalar _) (X25519.isScalar _)).1.mp hm
    revert this
    decide +kernel

def zeroOps : List (IdOp standard) := [.auth ⟨sampleKey, (⟨zeroSecret, rfl⟩ : Bytes32)⟩]

/-- Such exports exist. -/
example : ∃ out e, (idRun "did:x".toList zeroOps).buildPrivateKeys ⟨toyRandom, toyRandom, toyRandom, toyRandom⟩ "pw".toList = .ok out ∧
    Restored standard "pw".toList out (idRun "did:x".toList zeroOps).toDoc zeroSecret e := by
  obtain ⟨out, h⟩ := standard_exports "did:x".toList zeroOps
  obtain ⟨e, he⟩ := standard_restored _ _ out h _ (.inl rfl)
  exact ⟨out, e, h, he⟩

end Verif.Props
