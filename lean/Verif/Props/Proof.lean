import Verif.Lemmas.Suite
import Verif.Props.Wire

/-
C31 to C41, C44, C47: signing and verifying credentials and presentations with the `eddsa-jcs-2022` suite
(core/src/verifiable/proof/{integrity,eddsa,config,transform,hash,serialize,verifier}.rs).

The statements use `GoodOptions`, `message`, `optionBytes`, `vcBytes`, `vpBytes` of Verif/Spec/Signed.lean.
-/

namespace Verif.Props
open Verif Spec

/-- `Integrity::add_proof` of the eddsa-jcs-2022 suite. -/
abbrev sign (E : Env) (T : Type) [Proofable T] := (DataIntegrityEddsaJcs2022.build E T).addProof

/-- `Integrity::verify_proof` of the eddsa-jcs-2022 suite. -/
abbrev verify (E : Env) (T : Type) [Proofable T] := (DataIntegrityEddsaJcs2022.build E T).verifyProof

/-! ### Canonical text of the two document types -/

theorem vc_toJcs_iff {E : Env} (L : E.JcsLaws) (v : VC E) (t : Str) :
    (Proofable.toJcs v = .ok t ↔ VCComplete v ∧ utf8Encode t = vcBytes v) := by
  constructor
  · intro h
    have hc := (C24_serialise_iff v).2.1.mp ⟨t, h⟩
    refine ⟨hc, ?_⟩
    have := C49_vc_canonical L v hc
    rw [show Proofable.toJcs v = v.toJcs from rfl, this] at h
    cases h
    rw [vcBytes, utf8_eq]
  · rintro ⟨hc, ht⟩
    rw [show Proofable.toJcs v = v.toJcs from rfl, C49_vc_canonical L v hc]
    rw [vcBytes, utf8_eq] at ht
    rw [utf8Encode_injective ht]

theorem vp_toJcs_iff {E : Env} (L : E.JcsLaws) (v : VP E) (t : Str) :
    (Proofable.toJcs v = .ok t ↔ VPComplete v ∧ utf8Encode t = vpBytes v) := by
  constructor
  · intro h
    have hc := (C25_serialise_iff v).2.1.mp ⟨t, h⟩
    refine ⟨hc, ?_⟩
    have := C49_vp_canonical L v hc
    rw [show Proofable.toJcs v = v.toJcs from rfl, this] at h
    cases h
    rw [vpBytes, utf8_eq]
  · rintro ⟨hc, ht⟩
    rw [show Proofable.toJcs v = v.toJcs from rfl, C49_vp_canonical L v hc]
    rw [vpBytes, utf8_eq] at ht
    rw [utf8Encode_injective ht]

/-! ### C32 -/

/-- C32: `add_proof` on credentials, exactly. -/
theorem C32_vc {E : Env} (L : E.JcsLaws) (kp : E.EdKP) (v : VC E) (opts : Proof) :
    (∀ out, sign E (VC E) kp v opts = .ok out ↔
      GoodOptions E opts ∧ opts.proofPurpose ≠ .unknown ∧ VCComplete v ∧
      ∃ text, IsMultibase58 (E.edSign kp (message E (optionBytes E opts) (vcBytes v))) text ∧
        out = ⟨v.contexts, v.types, v.credentialSubject,
          some ⟨opts.id, opts.typ, opts.proofPurpose, text, opts.verificationMethod, opts.created, opts.expires,
            opts.cryptosuite⟩, v.id, v.issuer⟩) ∧
    (∀ e, sign E (VC E) kp v opts = .error e → ∃ m, e = .proofGenerationError m) := by
  refine ⟨?_, fun e h => addProof_error L kp v opts e h⟩
  intro out
  rw [addProof_iff L]
  constructor
  · rintro ⟨h1, h2, t, h3, rfl⟩
    obtain ⟨h4, h5⟩ := (vc_toJcs_iff L v t).mp h3
    refine ⟨h1, h2, h4, _, multibaseEncode58_spec _, ?_⟩
    rw [h5]; rfl
  · rintro ⟨h1, h2, h3, text, h4, rfl⟩
    refine ⟨h1, h2, canonicalText E (vcObject v), C49_vc_canonical L v h3, ?_⟩
    rw [h4.unique, ← utf8_eq]; rfl

/-- C32: `add_proof` on presentations, exactly. -/
theorem C32_vp {E : Env} (L : E.JcsLaws) (kp : E.EdKP) (v : VP E) (opts : Proof) :
    (∀ out, sign E (VP E) kp v opts = .ok out ↔
      GoodOptions E opts ∧ opts.proofPurpose ≠ .unknown ∧ VPComplete v ∧
      ∃ text, IsMultibase58 (E.edSign kp (message E (optionBytes E opts) (vpBytes v))) text ∧
        out = ⟨v.contexts, v.types, v.verifiableCredential,
          some ⟨opts.id, opts.typ, opts.proofPurpose, text, opts.verificationMethod, opts.created, opts.expires,
            opts.cryptosuite⟩, v.holder⟩) ∧
    (∀ e, sign E (VP E) kp v opts = .error e → ∃ m, e = .proofGenerationError m) := by
  refine ⟨?_, fun e h => addProof_error L kp v opts e h⟩
  intro out
  rw [addProof_iff L]
  constructor
  · rintro ⟨h1, h2, t, h3, rfl⟩
    obtain ⟨h4, h5⟩ := (vp_toJcs_iff L v t).mp h3
    refine ⟨h1, h2, h4, _, multibaseEncode58_spec _, ?_⟩
    rw [h5]; rfl
  · rintro ⟨h1, h2, h3, text, h4, rfl⟩
    refine ⟨h1, h2, canonicalText E (vpObject v), C49_vp_canonical L v h3, ?_⟩
    rw [h4.unique, ← utf8_eq]; rfl

theorem toyProof_good : GoodOptions Toy.env toyProof := ⟨by decide, by decide, "2024".toList, rfl, rfl⟩
theorem toyVC_complete : VCComplete toyVC := ⟨by decide, by decide, fun h => by cases h⟩
theorem toyVP_complete : VPComplete toyVP := ⟨by decide, by decide, by simp [toyVP]⟩

example : ∃ out, sign Toy.env (VC Toy.env) (7 : UInt8) toyVC toyProof = .ok out :=
  ⟨_, ((C32_vc Toy.jcsLaws _ _ _).1 _).mpr
    ⟨toyProof_good, by decide, toyVC_complete, _, multibaseEncode58_spec _, rfl⟩⟩
example : ∃ m, sign Toy.env (VC Toy.env) (7 : UInt8) toyVC { toyProof with created := none } =
    .error (.proofGenerationError m) := ⟨_, rfl⟩

/-! ### C33, C34 -/

/-- C33: `verify_proof` on credentials accepts exactly these byte strings, with this document. -/
theorem C33_vc {E : Env} (L : E.JcsLaws) (pub : E.EdPub) (bs : Bytes) (purpose : ProofPurpose)
    (r : VerificationResult (VC E)) :
    (verify E (VC E) pub bs purpose = .ok r ∧ r.verified = true) ↔
      ∃ v p, VC.parseJsonBytes E bs = .ok v ∧ v.proof = some p ∧ GoodOptions E p ∧ p.proofPurpose = purpose ∧
        purpose ≠ .unknown ∧ VCComplete v ∧
        Accepts E pub (message E (optionBytes E (unvalued p)) (vcBytes (unsignedVC v))) p.proofValue ∧
        r = ⟨true, some (unsignedVC v)⟩ := by
  rw [verify_ok_iff L]
  constructor
  · rintro ⟨⟨v, p, base, sig, t, b, h1, h2, h3, h4, h5, h6, h7, h8, rfl⟩, hv⟩
    obtain ⟨h9, h10⟩ := (vc_toJcs_iff L _ t).mp h7
    cases b with
    | false => cases hv
    | true =>
      exact ⟨v, p, h1, h2, h3, h4, h5, h9, ⟨base, sig, _, h6, hexEncode_spec sig, by rw [h10] at h8; exact h8⟩, rfl⟩
  · rintro ⟨v, p, h1, h2, h3, h4, h5, h6, ⟨base, sig, hex, h7, h8, h9⟩, rfl⟩
    refine ⟨⟨v, p, base, sig, canonicalText E (vcObject (unsignedVC v)), true, h1, h2, h3, h4, h5, h7, ?_, ?_, rfl⟩, rfl⟩
    · exact C49_vc_canonical L (unsignedVC v) h6
    · rw [← utf8_eq, ← h8.unique]; exact h9

/-- C33: `verify_proof` on presentations. -/
theorem C33_vp {E : Env} (L : E.JcsLaws) (pub : E.EdPub) (bs : Bytes) (purpose : ProofPurpose)
    (r : VerificationResult (VP E)) :
    (verify E (VP E) pub bs purpose = .ok r ∧ r.verified = true) ↔
      ∃ v p, VP.parseJsonBytes E bs = .ok v ∧ v.proof = some p ∧ GoodOptions E p ∧ p.proofPurpose = purpose ∧
        purpose ≠ .unknown ∧ VPComplete v ∧
        Accepts E pub (message E (optionBytes E (unvalued p)) (vpBytes (unsignedVP v))) p.proofValue ∧
        r = ⟨true, some (unsignedVP v)⟩ := by
  rw [verify_ok_iff L]
  constructor
  · rintro ⟨⟨v, p, base, sig, t, b, h1, h2, h3, h4, h5, h6, h7, h8, rfl⟩, hv⟩
    obtain ⟨h9, h10⟩ := (vp_toJcs_iff L _ t).mp h7
    cases b with
    | false => cases hv
    | true =>
      exact ⟨v, p, h1, h2, h3, h4, h5, h9, ⟨base, sig, _, h6, hexEncode_spec sig, by rw [h10] at h8; exact h8⟩, rfl⟩
  · rintro ⟨v, p, h1, h2, h3, h4, h5, h6, ⟨base, sig, hex, h7, h8, h9⟩, rfl⟩
    refine ⟨⟨v, p, base, sig, canonicalText E (vpObject (unsignedVP v)), true, h1, h2, h3, h4, h5, h7, ?_, ?_, rfl⟩, rfl⟩
    · exact C49_vp_canonical L (unsignedVP v) h6
    · rw [← utf8_eq, ← h8.unique]; exact h9

/-- C34: shape of every result on credentials; the flag is the key's verdict on the signed message. -/
theorem C34_vc {E : Env} (L : E.JcsLaws) (pub : E.EdPub) (bs : Bytes) (purpose : ProofPurpose)
    (r : VerificationResult (VC E)) (h : verify E (VC E) pub bs purpose = .ok r) :
    ∃ v p base sig hex, VC.parseJsonBytes E bs = .ok v ∧ v.proof = some p ∧ IsMultibase E base sig p.proofValue ∧
      IsHex sig hex ∧
      E.edVerify pub (message E (optionBytes E (unvalued p)) (vcBytes (unsignedVC v))) hex = .ok r.verified ∧
      ((r.verified = true ∧ r.document = some (unsignedVC v)) ∨ (r.verified = false ∧ r.document = none)) := by
  obtain ⟨v, p, base, sig, t, b, h1, h2, h3, h4, h5, h6, h7, h8, rfl⟩ := (verify_ok_iff L _ _ _ _).mp h
  rw [((vc_toJcs_iff L _ t).mp h7).2] at h8
  refine ⟨v, p, base, sig, _, h1, h2, h6, hexEncode_spec sig, ?_, ?_⟩
  · cases b <;> exact h8
  · cases b
    · exact .inr ⟨rfl, rfl⟩
    · exact .inl ⟨rfl, rfl⟩

/-- C34: the same for presentations. -/
theorem C34_vp {E : Env} (L : E.JcsLaws) (pub : E.EdPub) (bs : Bytes) (purpose : ProofPurpose)
    (r : VerificationResult (VP E)) (h : verify E (VP E) pub bs purpose = .ok r) :
    ∃ v p base sig hex, VP.parseJsonBytes E bs = .ok v ∧ v.proof = some p ∧ IsMultibase E base sig p.proofValue ∧
      IsHex sig hex ∧
      E.edVerify pub (message E (optionBytes E (unvalued p)) (vpBytes (unsignedVP v))) hex = .ok r.verified ∧
      ((r.verified = true ∧ r.document = some (unsignedVP v)) ∨ (r.verified = false ∧ r.document = none)) := by
  obtain ⟨v, p, base, sig, t, b, h1, h2, h3, h4, h5, h6, h7, h8, rfl⟩ := (verify_ok_iff L _ _ _ _).mp h
  rw [((vp_toJcs_iff L _ t).mp h7).2] at h8
  refine ⟨v, p, base, sig, _, h1, h2, h6, hexEncode_spec sig, ?_, ?_⟩
  · cases b <;> exact h8
  · cases b
    · exact .inr ⟨rfl, rfl⟩
    · exact .inl ⟨rfl, rfl⟩

/-- `C34_vc`: the sample credential signed with key 7. Under key 8 the result is `false`, without a document. -/
example : ∃ bs, verify Toy.env (VC Toy.env) (8 : UInt8) bs .assertionMethod = .ok ⟨false, none⟩ := by
  obtain ⟨t, _, h⟩ := C26_json_roundtrip Toy.numLaws (E := Toy.env)
    { toyVC with proof := some { toyProof with proofValue := multibaseEncode58 (Toy.env.edSign (7 : UInt8)
      (message Toy.env (optionBytes Toy.env toyProof) (vcBytes toyVC))) } }
    (by exact toyVC_complete) (Toy.survives _) (by simp [toyVC, toySubject, Json.depth, Json.depthMembers])
  refine ⟨_, (verify_ok_iff Toy.jcsLaws _ _ _ _).mpr ⟨_, _, .base58Btc, _, _, false, h, rfl,
    ⟨toyProof_good.1, toyProof_good.2, toyProof_good.3⟩, rfl, by decide, .base58 (multibaseEncode58_spec _),
    C49_vc_canonical Toy.jcsLaws toyVC toyVC_complete, ?_, rfl⟩⟩
  decide +kernel

/-! ### C31 -/

/-- C31: a signed credential, sent as JSON, is accepted under the matching key and purpose and gives back the
document that was signed. Any byte string that reads as the signed credential will do, in particular its own
JSON text. -/
theorem C31_vc {E : Env} (L : E.JcsLaws) (N : E.NumLaws) (K : E.EdLaws) (kp : E.EdKP) (v : VC E) (opts : Proof)
    (hv : VCComplete v) (hproof : v.proof = none) (ho : GoodOptions E opts) (hp : opts.proofPurpose ≠ .unknown)
    (hval : opts.proofValue = []) :
    ∃ signed, sign E (VC E) kp v opts = .ok signed ∧
      (∀ bs, VC.parseJsonBytes E bs = .ok signed →
        verify E (VC E) (E.edPub kp) bs opts.proofPurpose = .ok ⟨true, some v⟩) ∧
      (Survives E v.credentialSubject.1 → v.credentialSubject.1.depth ≤ 126 → ∃ t, signed.toJson = .ok t ∧
        verify E (VC E) (E.edPub kp) (utf8 t.text) opts.proofPurpose = .ok ⟨true, some v⟩) := by
  obtain ⟨c, t, s, pr, i, iss⟩ := v
  obtain ⟨oi, ot, op, ov, om, oc, oe, os⟩ := opts
  simp only at hproof hval
  subst hproof hval
  obtain ⟨text, htext⟩ : ∃ text, IsMultibase58 (E.edSign kp (message E
    (optionBytes E ⟨oi, ot, op, [], om, oc, oe, os⟩) (vcBytes (E := E) ⟨c, t, s, none, i, iss⟩))) text := ⟨_, multibaseEncode58_spec _⟩
  have hs := ((C32_vc L kp ⟨c, t, s, none, i, iss⟩ ⟨oi, ot, op, [], om, oc, oe, os⟩).1 _).mpr ⟨ho, hp, hv, _, htext, rfl⟩
  refine ⟨_, hs, ?_⟩
  have key : ∀ bs, VC.parseJsonBytes E bs = .ok ⟨c, t, s, some ⟨oi, ot, op, text, om, oc, oe, os⟩, i, iss⟩ →
      verify E (VC E) (E.edPub kp) bs op = .ok ⟨true, some ⟨c, t, s, none, i, iss⟩⟩ := by
    intro bs hb
    refine ((C33_vc L _ _ _ _).mpr ⟨_, _, hb, rfl, ?_, rfl, hp, hv, ?_, rfl⟩).1
    · exact ⟨ho.1, ho.2, ho.3⟩
    · exact ⟨_, _, _, .base58 htext, hexEncode_spec _, K.verify_sign kp _⟩
  refine ⟨key, fun hn hd => ?_⟩
  obtain ⟨tx, h1, h2⟩ := C26_json_roundtrip N
    (v := ⟨c, t, s, some ⟨oi, ot, op, text, om, oc, oe, os⟩, i, iss⟩) hv hn hd
  refine ⟨tx, h1, key _ ?_⟩
  rw [utf8_eq]; exact h2

/-- C31: the same for presentations. -/
theorem C31_vp {E : Env} (L : E.JcsLaws) (N : E.NumLaws) (K : E.EdLaws) (kp : E.EdKP) (v : VP E) (opts : Proof)
    (hv : VPComplete v) (hproof : v.proof = none) (ho : GoodOptions E opts) (hp : opts.proofPurpose ≠ .unknown)
    (hval : opts.proofValue = []) :
    ∃ signed, sign E (VP E) kp v opts = .ok signed ∧
      (∀ bs, VP.parseJsonBytes E bs = .ok signed →
        verify E (VP E) (E.edPub kp) bs opts.proofPurpose = .ok ⟨true, some v⟩) ∧
      ((∀ c ∈ v.verifiableCredential, Survives E c.credentialSubject.1 ∧ c.credentialSubject.1.depth ≤ 124) → ∃ t, signed.toJson = .ok t ∧
        verify E (VP E) (E.edPub kp) (utf8 t.text) opts.proofPurpose = .ok ⟨true, some v⟩) := by
  obtain ⟨c, t, s, pr, i⟩ := v
  obtain ⟨oi, ot, op, ov, om, oc, oe, os⟩ := opts
  simp only at hproof hval
  subst hproof hval
  obtain ⟨text, htext⟩ : ∃ text, IsMultibase58 (E.edSign kp (message E
    (optionBytes E ⟨oi, ot, op, [], om, oc, oe, os⟩) (vpBytes (E := E) ⟨c, t, s, none, i⟩))) text := ⟨_, multibaseEncode58_spec _⟩
  have hs := ((C32_vp L kp ⟨c, t, s, none, i⟩ ⟨oi, ot, op, [], om, oc, oe, os⟩).1 _).mpr ⟨ho, hp, hv, _, htext, rfl⟩
  refine ⟨_, hs, ?_⟩
  have key : ∀ bs, VP.parseJsonBytes E bs = .ok ⟨c, t, s, some ⟨oi, ot, op, text, om, oc, oe, os⟩, i⟩ →
      verify E (VP E) (E.edPub kp) bs op = .ok ⟨true, some ⟨c, t, s, none, i⟩⟩ := by
    intro bs hb
    refine ((C33_vp L _ _ _ _).mpr ⟨_, _, hb, rfl, ?_, rfl, hp, hv, ?_, rfl⟩).1
    · exact ⟨ho.1, ho.2, ho.3⟩
    · exact ⟨_, _, _, .base58 htext, hexEncode_spec _, K.verify_sign kp _⟩
  refine ⟨key, fun hd => ?_⟩
  obtain ⟨tx, h1, h2⟩ := C27_json_roundtrip N
    (v := ⟨c, t, s, some ⟨oi, ot, op, text, om, oc, oe, os⟩, i⟩) hv (fun c hc => (hd c hc).1) fun c hc => (hd c hc).2
  refine ⟨tx, h1, key _ ?_⟩
  rw [utf8_eq]; exact h2

example : ∃ signed t, sign Toy.env (VC Toy.env) (7 : UInt8) toyVC toyProof = .ok signed ∧ signed.toJson = .ok t ∧
    verify Toy.env (VC Toy.env) (7 : UInt8) (utf8 t.text) .assertionMethod = .ok ⟨true, some toyVC⟩ := by
  obtain ⟨s, h1, _, h3⟩ := C31_vc Toy.jcsLaws Toy.numLaws Toy.edLaws (7 : UInt8) toyVC toyProof toyVC_complete rfl
    toyProof_good (by decide) rfl
  obtain ⟨t, h4, h5⟩ := h3 (Toy.survives _) (by simp [toyVC, toySubject, Json.depth, Json.depthMembers])
  exact ⟨s, t, h1, h4, h5⟩
example : ∃ signed t, sign Toy.env (VP Toy.env) (7 : UInt8) toyVP toyProof = .ok signed ∧ signed.toJson = .ok t ∧
    verify Toy.env (VP Toy.env) (7 : UInt8) (utf8 t.text) .assertionMethod = .ok ⟨true, some toyVP⟩ := by
  obtain ⟨s, h1, _, h3⟩ := C31_vp Toy.jcsLaws Toy.numLaws Toy.edLaws (7 : UInt8) toyVP toyProof toyVP_complete rfl
    toyProof_good (by decide) rfl
  obtain ⟨t, h4, h5⟩ := h3 (fun _ hc => ⟨Toy.survives _, by revert hc; simp [toyVP]; rintro rfl; simp [toyVC, toySubject, Json.depth, Json.depthMembers]⟩)
  exact ⟨s, t, h1, h4, h5⟩

end Verif.Props
