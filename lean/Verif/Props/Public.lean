import Verif.Props.Doc
import Verif.Props.Identity
import Verif.Props.Proof

/-
C62: where key material shows.
-/

namespace Verif.Props
open Verif Spec

/-! ### C62 -/

/-- The serialised public keys of a call. -/
def publicPart {E : Env} (s : MethodSeed E) : Bytes × Bytes :=
  (E.edPubBytes (E.edPub (E.edGenerate s.ed)), E.dhPubBytes (E.dhPub (E.dhGenerate s.dh)))

theorem keyText_inj {a b : Bytes} {t : Str} (h : IsKeyText a t) (h' : IsKeyText b t) : a = b :=
  hexEncode_injective (utf8Encode_injective (multibaseEncode58_injective (h.unique.symm.trans h'.unique)))

theorem entries_iff {E : Env} {did idV idA : Str} {s s' : Option (MethodSeed E)} {x x' : Option (List Primary)}
    (h : EntriesIs E did idV idA s x) (h' : EntriesIs E did idV idA s' x') :
    x = x' ↔ s.map publicPart = s'.map publicPart := by
  cases s with
  | none =>
    cases s' with
    | none => rw [show x = none from h, show x' = none from h']; simp
    | some s' =>
      obtain ⟨l, e, _⟩ := h'
      rw [show x = none from h, e]; simp
  | some s =>
    obtain ⟨l, e, ⟨kv, ka, el, k1, k2⟩⟩ := h
    cases s' with
    | none => rw [show x' = none from h', e]; simp
    | some s' =>
      obtain ⟨l', e', ⟨kv', ka', el', k1', k2'⟩⟩ := h'
      subst e e' el el'
      simp only [Option.some.injEq, List.cons.injEq, Primary.mk.injEq, true_and, and_true, Option.map_some, publicPart,
        Prod.mk.injEq]
      constructor
      · rintro ⟨rfl, rfl⟩
        exact ⟨keyText_inj k1 k1', keyText_inj k2 k2'⟩
      · rintro ⟨a, b⟩
        rw [a] at k1; rw [b] at k2
        exact ⟨k1.unique.trans k1'.unique.symm, k2.unique.trans k2'.unique.symm⟩

/-- C62: the documents of two histories are equal exactly if the DIDs and the public keys of the first call of each
kind are: private keys, and all later calls, have no influence on the document. -/
theorem C62_document {E : Env} (v v' : Str) (ops ops' : List (IdOp E)) :
    (idRun v ops).toDoc = (idRun v' ops').toDoc ↔
      v = v' ∧ (firstAuth ops).map publicPart = (firstAuth ops').map publicPart ∧
        (firstAssertion ops).map publicPart = (firstAssertion ops').map publicPart := by
  obtain ⟨a1, a2, a3, a4, a5, a6, _⟩ := C12_document v ops
  obtain ⟨b1, b2, b3, b4, b5, b6, _⟩ := C12_document v' ops'
  constructor
  · intro h
    rw [h] at a1 a5 a6
    have e : v = v' := a1.symm.trans b1
    subst e
    exact ⟨rfl, (entries_iff a5 b5).mp rfl, (entries_iff a6 b6).mp rfl⟩
  · rintro ⟨rfl, h1, h2⟩
    have e1 := (entries_iff a5 b5).mpr h1
    have e2 := (entries_iff a6 b6).mpr h2
    revert a1 a2 a3 a4 b1 b2 b3 b4 e1 e2
    generalize (idRun v ops).toDoc = d
    generalize (idRun v ops').toDoc = d'
    intro a1 a2 a3 a4 b1 b2 b3 b4 e1 e2
    obtain ⟨x1, x2, x3, x4, x5, x6⟩ := d
    obtain ⟨y1, y2, y3, y4, y5, y6⟩ := d'
    simp only at *
    subst a1 a2 a3 a4 b1 b2 b3 b4 e1 e2
    rfl

/-- C62: the same of the texts. -/
theorem C62_text {E : Env} (N : E.NumLaws) (v v' : Str) (ops ops' : List (IdOp E)) :
    ((idRun v ops).toDoc.toJson E = (idRun v' ops').toDoc.toJson E) ↔
      v = v' ∧ (firstAuth ops).map publicPart = (firstAuth ops').map publicPart ∧
        (firstAssertion ops).map publicPart = (firstAssertion ops').map publicPart := by
  rw [← C62_document]
  constructor
  · intro h
    obtain ⟨t, h1, h2⟩ := C18_json_roundtrip N (idRun v ops).toDoc
    obtain ⟨t', h1', h2'⟩ := C18_json_roundtrip N (idRun v' ops').toDoc
    rw [h, h1'] at h1
    cases h1
    rw [h2] at h2'
    exact Option.some.inj h2'
  · intro h
    rw [h]

/-- `ks` is the encrypted record of `plain`: the secret shows in the cipher text alone. -/
structure IsRecord (E : Env) (r : ExportRandom) (pw : Str) (plain : Bytes) (ks : KeySecure) : Prop where
  cipher : ∃ key c, E.kdf E.kdfDefault pw (utf8 r.salt) = .ok key ∧ E.aeadEnc key r.nonce plain = .ok c ∧
    IsHex c ks.cipherText
  nonce : IsHex r.nonce ks.nonce
  params : ks.kdfParams = E.kdfDefault
  salt : ks.salt = r.salt

theorem export_iff {E : Env} (r : ExportRandom) (pw : Str) (plain : Bytes) (ks : KeySecure) :
    exportKeySecure E r plain pw = .ok ks ↔ IsRecord E r pw plain ks := by
  unfold exportKeySecure
  simp only [bind, Except.bind]
  constructor
  · intro h
    cases hk : E.kdf E.kdfDefault pw (utf8Encode r.salt) with
    | error m => rw [hk] at h; cases h
    | ok k =>
      rw [hk] at h
      simp only at h
      cases hc : E.aeadEnc k r.nonce plain with
      | error m => rw [hc] at h; cases h
      | ok c =>
        rw [hc] at h; cases h
        exact ⟨⟨k, c, by rw [utf8_eq]; exact hk, hc, hexEncode_spec _⟩, hexEncode_spec _, rfl, rfl⟩
  · rintro ⟨⟨k, c, h1, h2, h3⟩, h4, h5, h6⟩
    rw [utf8_eq] at h1
    rw [h1]
    simp only
    rw [h2]
    obtain ⟨a, b, p, s⟩ := ks
    simp only at *
    rw [← h3.unique, ← h4.unique, h5, h6]

/-- The exported records of a slot. -/
def SlotRecords (E : Env) (rv ra : ExportRandom) (pw : Str) : Option (MethodSeed E) → Option PrivateKeyPairs → Prop
  | none, x => x = none
  | some s, x => ∃ p pem hex, x = some p ∧ E.edPem (E.edPriv (E.edGenerate s.ed)) = .ok pem ∧
      IsHex (E.dhSecret (E.dhGenerate s.dh)) hex ∧ IsRecord E rv pw (utf8 pem) p.verification ∧
      IsRecord E ra pw (utf8 hex) p.aggrement

theorem buildSlot_iff {E : Env} {rv ra : ExportRandom} {pw : Str} {x : Option (VerificationMethod E)}
    {s : Option (MethodSeed E)} (hs : SlotIs E s x) (y : Option PrivateKeyPairs) :
    Identity.buildSlot rv ra pw x = .ok y ↔ SlotRecords E rv ra pw s y := by
  cases s with
  | none =>
    rw [show x = none from hs]
    constructor
    · intro h; cases h; rfl
    · intro h; rw [show y = none from h]; rfl
  | some s =>
    obtain ⟨m, e, hm⟩ := hs
    subst e
    have e1 : ∀ ks, m.verificationPairs.buildKeysecure rv pw = .ok ks ↔
        ∃ pem, E.edPem (E.edPriv (E.edGenerate s.ed)) = .ok pem ∧ IsRecord E rv pw (utf8 pem) ks := by
      intro ks
      unfold Verification.Pairs.buildKeysecure
      rw [hm.ver_priv]
      cases hp : E.edPem (E.edPriv (E.edGenerate s.ed)) with
      | error e => simp
      | ok pem =>
        simp only [Except.ok.injEq, exists_eq_left', ← export_iff, utf8_eq]
        cases exportKeySecure E rv (utf8Encode pem) pw <;> simp
    have e2 : ∀ ks, m.agreementPairs.buildKeysecure ra pw = .ok ks ↔
        ∃ hex, IsHex (E.dhSecret (E.dhGenerate s.dh)) hex ∧ IsRecord E ra pw (utf8 hex) ks := by
      intro ks
      unfold Agreement.Pairs.buildKeysecure
      rw [hm.agr_priv]
      simp only [isHex_iff, exists_eq_left, ← export_iff, utf8_eq]
      cases exportKeySecure E ra (utf8Encode (hexEncode (E.dhSecret (E.dhGenerate s.dh)))) pw <;> simp
    unfold Identity.buildSlot
    simp only
    constructor
    · intro h
      cases hv : m.verificationPairs.buildKeysecure rv pw with
      | error e => rw [hv] at h; cases h
      | ok kv =>
        rw [hv] at h
        simp only at h
        cases ha : m.agreementPairs.buildKeysecure ra pw with
        | error e => rw [ha] at h; cases h
        | ok ka =>
          rw [ha] at h; cases h
          obtain ⟨pem, h1, h2⟩ := (e1 _).mp hv
          obtain ⟨hex, h3, h4⟩ := (e2 _).mp ha
          exact ⟨_, pem, hex, rfl, h1, h3, h2, h4⟩
    · rintro ⟨⟨kv, ka⟩, pem, hex, rfl, h1, h3, h2, h4⟩
      rw [(e1 kv).mpr ⟨pem, h1, h2⟩]
      simp only
      rw [(e2 ka).mpr ⟨hex, h3, h4⟩]

/-- C62: the export of any reachable identity succeeds with exactly these records; apart from the cipher texts they
hold the DID and the random salts and nonces only. -/
theorem C62_export {E : Env} (v : Str) (ops : List (IdOp E)) (r : PrivateKeysRandom) (pw : Str)
    (out : IdentityPrivateKeyPairs) :
    (idRun v ops).buildPrivateKeys r pw = .ok out ↔ out.identity = v ∧
      SlotRecords E r.authVerification r.authAgreement pw (firstAuth ops) out.authentication ∧
      SlotRecords E r.assertionVerification r.assertionAgreement pw (firstAssertion ops) out.assertion := by
  obtain ⟨h1, h2, h3⟩ := C11_first_call_wins v ops
  have e1 := buildSlot_iff (rv := r.authVerification) (ra := r.authAgreement) (pw := pw) h2
  have e2 := buildSlot_iff (rv := r.assertionVerification) (ra := r.assertionAgreement) (pw := pw) h3
  unfold Identity.getAuthenticationMethod at e1
  unfold Identity.getAssertionMethod at e2
  unfold Identity.buildPrivateKeys
  obtain ⟨oi, oa, os⟩ := out
  simp only [← e1, ← e2]
  cases ha : Identity.buildSlot r.authVerification r.authAgreement pw (idRun v ops).authentication with
  | error e => simp
  | ok a =>
    cases hb : Identity.buildSlot r.assertionVerification r.assertionAgreement pw (idRun v ops).assertion with
    | error e => simp
    | ok b =>
      simp only [IdentityPrivateKeyPairs.new, h1, Except.ok.injEq, IdentityPrivateKeyPairs.mk.injEq]
      constructor <;> rintro ⟨rfl, rfl, rfl⟩ <;> exact ⟨rfl, rfl, rfl⟩

/-- The signed credential without the signature. -/
def veilVC {E : Env} (v : VC E) : VC E := ⟨v.contexts, v.types, v.credentialSubject, v.proof.map unvalued, v.id, v.issuer⟩

/-- The signed presentation without the signature. -/
def veilVP {E : Env} (v : VP E) : VP E := ⟨v.contexts, v.types, v.verifiableCredential, v.proof.map unvalued, v.holder⟩

/-- C62: which documents can be signed does not depend on the key, and the key shows in the signature alone. -/
theorem C62_signing_vc {E : Env} (L : E.JcsLaws) (kp kp' : E.EdKP) (v : VC E) (opts : Proof) :
    ((∃ out, sign E (VC E) kp v opts = .ok out) ↔ ∃ out, sign E (VC E) kp' v opts = .ok out) ∧
    ∀ out out', sign E (VC E) kp v opts = .ok out → sign E (VC E) kp' v opts = .ok out' →
      veilVC out = veilVC out' := by
  have key : ∀ kp kp' : E.EdKP, (∃ out, sign E (VC E) kp v opts = .ok out) → ∃ out, sign E (VC E) kp' v opts = .ok out := by
    rintro kp kp' ⟨out, h⟩
    obtain ⟨h1, h2, h3, _⟩ := ((C32_vc L kp v opts).1 out).mp h
    exact ⟨_, ((C32_vc L kp' v opts).1 _).mpr ⟨h1, h2, h3, _, multibaseEncode58_spec _, rfl⟩⟩
  refine ⟨⟨key _ _, key _ _⟩, fun out out' h h' => ?_⟩
  obtain ⟨_, _, _, t, _, rfl⟩ := ((C32_vc L kp v opts).1 out).mp h
  obtain ⟨_, _, _, t', _, rfl⟩ := ((C32_vc L kp' v opts).1 out').mp h'
  rfl

/-- C62: the same for presentations. -/
theorem C62_signing_vp {E : Env} (L : E.JcsLaws) (kp kp' : E.EdKP) (v : VP E) (opts : Proof) :
    ((∃ out, sign E (VP E) kp v opts = .ok out) ↔ ∃ out, sign E (VP E) kp' v opts = .ok out) ∧
    ∀ out out', sign E (VP E) kp v opts = .ok out → sign E (VP E) kp' v opts = .ok out' →
      veilVP out = veilVP out' := by
  have key : ∀ kp kp' : E.EdKP, (∃ out, sign E (VP E) kp v opts = .ok out) → ∃ out, sign E (VP E) kp' v opts = .ok out := by
    rintro kp kp' ⟨out, h⟩
    obtain ⟨h1, h2, h3, _⟩ := ((C32_vp L kp v opts).1 out).mp h
    exact ⟨_, ((C32_vp L kp' v opts).1 _).mpr ⟨h1, h2, h3, _, multibaseEncode58_spec _, rfl⟩⟩
  refine ⟨⟨key _ _, key _ _⟩, fun out out' h h' => ?_⟩
  obtain ⟨_, _, _, t, _, rfl⟩ := ((C32_vp L kp v opts).1 out).mp h
  obtain ⟨_, _, _, t', _, rfl⟩ := ((C32_vp L kp' v opts).1 out').mp h'
  rfl

/-- Histories with different secrets and the same document. -/
example : (idRun "did:x".toList toyOps).toDoc =
    (idRun "did:x".toList (.assertion ⟨(3 : UInt8), (4 : UInt8)⟩ :: toyOps ++ [.auth ⟨(9 : UInt8), (9 : UInt8)⟩])).toDoc :=
  (C62_document _ _ _ _).mpr ⟨rfl, rfl, rfl⟩

/-- Another public key, another text. -/
example : (idRun "did:x".toList toyOps).toDoc.toJson Toy.env ≠
    (idRun "did:x".toList (.auth ⟨(1 : UInt8), (3 : UInt8)⟩ :: toyOps)).toDoc.toJson Toy.env := fun h => by
  obtain ⟨_, h, _⟩ := (C62_text Toy.numLaws _ _ _ _).mp h
  exact absurd (congrArg (Option.map Prod.snd) h) (show (some [0, 2] : Option Bytes) ≠ some [0, 3] by decide)

/-- The records of an export. -/
example : ∃ out p, (idRun "did:x".toList toyOps).buildPrivateKeys ⟨toyRandom, toyRandom, toyRandom, toyRandom⟩
    "pw".toList = .ok out ∧ out.assertion = some p ∧ p.verification.salt = "salt".toList := by
  have h : ∃ out, (idRun "did:x".toList toyOps).buildPrivateKeys ⟨toyRandom, toyRandom, toyRandom, toyRandom⟩
    "pw".toList = .ok out := ⟨_, rfl⟩
  obtain ⟨out, h⟩ := h
  obtain ⟨_, _, ⟨p, _, _, e, _, _, h1, _⟩⟩ := (C62_export _ _ _ _ _).mp h
  exact ⟨out, p, h, e, h1.salt⟩

/-- Two keys sign. -/
example : ∃ out out', sign Toy.env (VC Toy.env) (7 : UInt8) toyVC toyProof = .ok out ∧
    sign Toy.env (VC Toy.env) (8 : UInt8) toyVC toyProof = .ok out' ∧ veilVC out = veilVC out' := by
  have h := ((C32_vc Toy.jcsLaws (7 : UInt8) toyVC toyProof).1 _).mpr
    ⟨toyProof_good, by decide, toyVC_complete, _, multibaseEncode58_spec _, rfl⟩
  obtain ⟨⟨h1, _⟩, h2⟩ := C62_signing_vc Toy.jcsLaws (7 : UInt8) (8 : UInt8) toyVC toyProof
  obtain ⟨out', h'⟩ := h1 ⟨_, h⟩
  exact ⟨_, out', h, h', h2 _ _ h h'⟩

example : ∃ out out', sign Toy.env (VP Toy.env) (7 : UInt8) toyVP toyProof = .ok out ∧
    sign Toy.env (VP Toy.env) (8 : UInt8) toyVP toyProof = .ok out' ∧ veilVP out = veilVP out' := by
  have h := ((C32_vp Toy.jcsLaws (7 : UInt8) toyVP toyProof).1 _).mpr
    ⟨toyProof_good, by decide, toyVP_complete, _, multibaseEncode58_spec _, rfl⟩
  obtain ⟨⟨h1, _⟩, h2⟩ := C62_signing_vp Toy.jcsLaws (7 : UInt8) (8 : UInt8) toyVP toyProof
  obtain ⟨out', h'⟩ := h1 ⟨_, h⟩
  exact ⟨_, out', h, h', h2 _ _ h h'⟩

end Verif.Props
