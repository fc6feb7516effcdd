import Verif.Props.Outcomes

/-
C71: the cryptosuite called directly, without `Integrity` (`CryptoSuiteBuilder` is a public trait,
core/src/verifiable/proof/types.rs:180-196, eddsa.rs:32-113).
-/

namespace Verif.Spec
open Verif

/-- The proof value is not multibase. -/
def valueCheck (E : Env) (p : Proof) : Check := fun e =>
  (∀ base sig, ¬ IsMultibase E base sig p.proofValue) ∧ e = .proofVerificationError (E.msg (.multibase p.proofValue))

end Verif.Spec

namespace Verif
open Spec

section
variable {T : Type} [Proofable T]

theorem suite_outcome {E : Env} (L : E.JcsLaws) (pub : E.EdPub) (doc : T) (p : Proof)
    (hg : Proofable.getProof doc = some p) (cs : List Check) (hd : DocChecks (Proofable.removeProof doc) cs)
    (db : Bytes) (hdb : ∀ t, Proofable.toJcs (Proofable.removeProof doc) = .ok t → utf8Encode t = db) :
    DescribedBy (EddsaJcs2022.verifyProof E pub doc)
      ([valueCheck E p] ++ (suiteChecks p ++ (cs ++ (createdChecks E p ++ [signatureCheck E pub p db])))) := by
  intro e
  have e2 : EddsaJcs2022.verifyProof E pub doc =
      match E.mbDecode p.proofValue with
      | none => .error (.proofVerificationError (E.msg (.multibase p.proofValue)))
      | some (_, proofBytes) =>
        match transformDocument (Proofable.removeProof doc) p.removeProofValue with
        | .error e => .error e
        | .ok transformedData =>
          match generateProofConfig E p.removeProofValue with
          | .error e => .error e
          | .ok proofConfig =>
            match generateHash (transformedData.hash E) (proofConfig.hash E) with
            | .error e => .error e
            | .ok hashedData =>
              match verifySignature E pub hashedData ⟨proofBytes⟩ with
              | .error e => .error e
              | .ok isVerified => .ok (VerificationResult.result isVerified (Proofable.removeProof doc)) := by
    unfold EddsaJcs2022.verifyProof
    simp only [hg]
    rfl
  rw [e2]
  have hp : DescribedBy (match E.mbDecode p.proofValue with
      | none => .error (.proofVerificationError (E.msg (.multibase p.proofValue)))
      | some x => .ok x) [valueCheck E p] := by
    intro e
    simp only [FirstFails, valueCheck, and_false, or_false]
    cases hm : E.mbDecode p.proofValue with
    | none =>
      rw [mbDecode_none] at hm
      simp only [hm, not_false_iff, implies_true, true_and]
      constructor
      · intro h; exact (Except.error.inj h).symm
      · intro h; rw [h]
    | some x =>
      obtain ⟨b, sig⟩ := x
      have := (mbDecode_iff _ _ _ _).mp hm
      constructor
      · intro h; cases h
      · rintro ⟨h, _⟩; exact absurd this (h _ _)
  cases hm : E.mbDecode p.proofValue with
  | none =>
    rw [hp.fail (e0 := .proofVerificationError (E.msg (.multibase p.proofValue))) (by rw [hm])]
    simp only [Except.error.injEq]
  | some x =>
    obtain ⟨base, sig⟩ := x
    rw [hp.pass (a := (base, sig)) (by rw [hm])]
    simp only
    have g1 : p.removeProofValue.validateType = p.validateType := rfl
    have g2 : p.removeProofValue.validateCryptosuite = p.validateCryptosuite := rfl
    have g3 : p.removeProofValue.validateCreated E = p.validateCreated E := rfl
    rw [generateProofConfig_eq, transformDocument_eq, g1, g2, g3]
    have es : ∀ r, suiteChecks p ++ r =
      [gen (p.typ ≠ "DataIntegrityProof".toList) "invalid proof type"] ++
        ([gen (p.cryptosuite = none) "missing cryptosuite",
          gen (p.cryptosuite ≠ some "eddsa-jcs-2022".toList) "invalid cryptosuite"] ++ r) := fun r => by
            simp [suiteChecks]
    rw [es]
    rcases except_ok_or p.validateType with h1 | ⟨e1, h1⟩
    swap
    · rw [(describedBy_type p).fail h1, h1]; simp
    rw [(describedBy_type p).pass h1]
    rcases except_ok_or p.validateCryptosuite with h2 | ⟨e2, h2⟩
    swap
    · rw [(describedBy_suite p).fail h2, h1, h2]; simp
    rw [(describedBy_suite p).pass h2]
    simp only [h1, h2]
    unfold DocChecks at hd
    cases ht : (Proofable.toJcs (Proofable.removeProof doc) : Except DIDError Str) with
    | error e => rw [ht] at hd; rw [hd.fail rfl]; simp
    | ok t =>
      rw [ht] at hd; rw [hd.pass rfl]
      simp only
      rcases except_ok_or (p.validateCreated E) with h3 | ⟨e3, h3⟩
      swap
      · rw [(describedBy_created E p).fail h3, h3]; simp
      rw [(describedBy_created E p).pass h3]
      simp only [h3, Proof.toJcs, TransformedDoc.hash, ProofConfig.hash, generateHash, verifySignature,
        ProofByte.toHex, FirstFails, and_false, or_false]
      unfold signatureCheck message
      rw [← hdb t ht, ← optionBytes_eq L, show unvalued p = p.removeProofValue from rfl]
      have hmb := (mbDecode_iff _ _ _ _).mp hm
      constructor
      · intro h
        refine ⟨base, sig, hexEncode sig, ?_⟩
        cases hs : E.edVerify pub (E.sha256 (utf8Encode (jcsText E p.removeProofValue.toTree)) ++
            E.sha256 (utf8Encode t)) (hexEncode sig) with
        | ok b => rw [hs] at h; cases h
        | error m => rw [hs] at h; cases h; exact ⟨m, hmb, hexEncode_spec _, rfl, rfl⟩
      · rintro ⟨base', sig', hex, m, k1, k2, k3, rfl⟩
        cases Props.isMultibase_bytes k1 hmb
        rw [k2.unique] at k3
        rw [k3]

/-- `create_proof` succeeds. -/
theorem createProof_iff {E : Env} (L : E.JcsLaws) (kp : E.EdKP) (doc : T) (opts p : Proof) :
    EddsaJcs2022.createProof E kp doc opts = .ok p ↔
      GoodOptions E opts ∧ ∃ t, Proofable.toJcs doc = .ok t ∧ p = { opts with
        proofValue := multibaseEncode58 (E.edSign kp (message E (optionBytes E opts) (utf8Encode t))) } := by
  obtain ⟨c1, c2⟩ := createProof_cases L kp doc opts
  by_cases hg : GoodOptions E opts
  swap
  · obtain ⟨m, hm⟩ := c2 (.inl hg)
    rw [hm]
    exact ⟨fun h => (nomatch h), fun h => absurd h.1 hg⟩
  cases ht : (Proofable.toJcs doc : Except DIDError Str) with
  | error e =>
    obtain ⟨m, hm⟩ := c2 (.inr ⟨e, ht⟩)
    rw [hm]
    exact ⟨fun h => (nomatch h), fun ⟨_, t, h, _⟩ => (nomatch h)⟩
  | ok t =>
    rw [c1 hg t ht]
    constructor
    · intro h; cases h; exact ⟨hg, t, rfl, rfl⟩
    · rintro ⟨_, t', h, rfl⟩; cases h; rfl

/-- The suite's `verify_proof` returns a result. -/
theorem suite_ok_iff {E : Env} (L : E.JcsLaws) (pub : E.EdPub) (doc : T) (r : VerificationResult T) :
    EddsaJcs2022.verifyProof E pub doc = .ok r ↔
      ∃ p base sig t b, Proofable.getProof doc = some p ∧ GoodOptions E p ∧ IsMultibase E base sig p.proofValue ∧
        Proofable.toJcs (Proofable.removeProof doc) = .ok t ∧
        E.edVerify pub (message E (optionBytes E (unvalued p)) (utf8Encode t)) (hexEncode sig) = .ok b ∧
        r = VerificationResult.result b (Proofable.removeProof doc) := by
  cases hp : Proofable.getProof doc with
  | none =>
    have : EddsaJcs2022.verifyProof E pub doc =
        .error (.proofVerificationError "missing proof from given document".toList) := by
      unfold EddsaJcs2022.verifyProof; simp only [hp]
    rw [this]
    constructor
    · intro h; cases h
    · rintro ⟨_, _, _, _, _, h, _⟩; cases h
  | some p =>
    obtain ⟨s1, s2⟩ := suiteVerify_cases L pub doc p hp
    cases hm : E.mbDecode p.proofValue with
    | none =>
      obtain ⟨m, h⟩ := s1 hm
      rw [h]
      constructor
      · intro h; cases h
      · rintro ⟨q, _, _, _, _, h1, _, h3, _⟩
        cases h1
        exact absurd h3 ((mbDecode_none E _).mp hm _ _)
    | some x =>
      obtain ⟨base, sig⟩ := x
      obtain ⟨c1, c2⟩ := s2 base sig hm
      have hmb := (mbDecode_iff ..).mp hm
      by_cases hbad : ¬ GoodOptions E p ∨ ∃ e, Proofable.toJcs (Proofable.removeProof doc) = .error e
      · obtain ⟨m, h⟩ := c1 hbad
        rw [h]
        constructor
        · intro h; cases h
        · rintro ⟨q, _, _, t, _, h1, h2, _, h4, _⟩
          cases h1
          rcases hbad with g | ⟨e, g⟩
          · exact absurd h2 g
          · rw [h4] at g; cases g
      · simp only [not_or, Classical.not_not, not_exists] at hbad
        obtain ⟨hg, ht⟩ := hbad
        cases hj : (Proofable.toJcs (Proofable.removeProof doc) : Except DIDError Str) with
        | error e => exact absurd hj (ht e)
        | ok t =>
          rw [c2 hg t hj]
          constructor
          · intro h
            cases hv : E.edVerify pub (message E (optionBytes E (unvalued p)) (utf8Encode t)) (hexEncode sig) with
            | error m => rw [hv] at h; cases h
            | ok b => rw [hv] at h; cases h; exact ⟨p, base, sig, t, b, rfl, hg, hmb, rfl, hv, rfl⟩
          · rintro ⟨q, base', sig', t', b, h1, _, h3, h4, h5, rfl⟩
            cases h1; cases h4
            cases Props.isMultibase_bytes h3 hmb
            rw [h5]

end
end Verif

namespace Verif.Props
open Verif Spec

/-- C71: `create_proof` on a credential. The suite itself does not ask for a purpose. -/
theorem C71_create_vc {E : Env} (L : E.JcsLaws) (kp : E.EdKP) (v : VC E) (opts : Proof) :
    (∀ p, (EddsaJcs2022.suite E (VC E)).createProof kp v opts = .ok p ↔
      GoodOptions E opts ∧ VCComplete v ∧ ∃ text,
        IsMultibase58 (E.edSign kp (message E (optionBytes E opts) (vcBytes v))) text ∧
        p = ⟨opts.id, opts.typ, opts.proofPurpose, text, opts.verificationMethod, opts.created, opts.expires,
          opts.cryptosuite⟩) ∧
    ∀ e, (EddsaJcs2022.suite E (VC E)).createProof kp v opts = .error e ↔
      FirstFails (suiteChecks opts ++ (createdChecks E opts ++ vcChecks v)) e := by
  refine ⟨?_, fun e => create_outcome kp v _ (vc_docChecks v) opts e⟩
  intro p
  show EddsaJcs2022.createProof E kp v opts = .ok p ↔ _
  rw [createProof_iff L]
  constructor
  · rintro ⟨h1, t, h3, rfl⟩
    obtain ⟨h4, h5⟩ := (vc_toJcs_iff L v t).mp h3
    refine ⟨h1, h4, _, multibaseEncode58_spec _, ?_⟩
    rw [h5]
  · rintro ⟨h1, h3, text, h4, rfl⟩
    refine ⟨h1, canonicalText E (vcObject v), C49_vc_canonical L v h3, ?_⟩
    rw [h4.unique, ← utf8_eq]; rfl

/-- C71: `create_proof` on a presentation. -/
theorem C71_create_vp {E : Env} (L : E.JcsLaws) (kp : E.EdKP) (v : VP E) (opts : Proof) :
    (∀ p, (EddsaJcs2022.suite E (VP E)).createProof kp v opts = .ok p ↔
      GoodOptions E opts ∧ VPComplete v ∧ ∃ text,
        IsMultibase58 (E.edSign kp (message E (optionBytes E opts) (vpBytes v))) text ∧
        p = ⟨opts.id, opts.typ, opts.proofPurpose, text, opts.verificationMethod, opts.created, opts.expires,
          opts.cryptosuite⟩) ∧
    ∀ e, (EddsaJcs2022.suite E (VP E)).createProof kp v opts = .error e ↔
      FirstFails (suiteChecks opts ++ (createdChecks E opts ++ vpChecks v)) e := by
  refine ⟨?_, fun e => create_outcome kp v _ (vp_docChecks v) opts e⟩
  intro p
  show EddsaJcs2022.createProof E kp v opts = .ok p ↔ _
  rw [createProof_iff L]
  constructor
  · rintro ⟨h1, t, h3, rfl⟩
    obtain ⟨h4, h5⟩ := (vp_toJcs_iff L v t).mp h3
    refine ⟨h1, h4, _, multibaseEncode58_spec _, ?_⟩
    rw [h5]
  · rintro ⟨h1, h3, text, h4, rfl⟩
    refine ⟨h1, canonicalText E (vpObject v), C49_vp_canonical L v h3, ?_⟩
    rw [h4.unique, ← utf8_eq]; rfl

/-- C71: `verify_proof` of the suite on a credential: what is accepted, with which result, and the error otherwise.
The suite does not compare the purpose with anything; that is left to `Integrity`. -/
theorem C71_verify_vc {E : Env} (L : E.JcsLaws) (pub : E.EdPub) (v : VC E) :
    (∀ r, ((EddsaJcs2022.suite E (VC E)).verifyProof pub v = .ok r ∧ r.verified = true) ↔
      ∃ p, v.proof = some p ∧ GoodOptions E p ∧ VCComplete v ∧
        Accepts E pub (message E (optionBytes E (unvalued p)) (vcBytes (unsignedVC v))) p.proofValue ∧
        r = ⟨true, some (unsignedVC v)⟩) ∧
    ∀ e, (EddsaJcs2022.suite E (VC E)).verifyProof pub v = .error e ↔
      (v.proof = none ∧ e = .proofVerificationError "missing proof from given document".toList) ∨
      ∃ p, v.proof = some p ∧ FirstFails ([valueCheck E p] ++ (suiteChecks p ++ (vcChecks v ++
        (createdChecks E p ++ [signatureCheck E pub p (vcBytes (unsignedVC v))])))) e := by
  refine ⟨?_, ?_⟩
  · intro r
    show (EddsaJcs2022.verifyProof E pub v = .ok r ∧ _) ↔ _
    rw [suite_ok_iff L]
    constructor
    · rintro ⟨⟨p, base, sig, t, b, h2, h3, h6, h7, h8, rfl⟩, hv⟩
      obtain ⟨h9, h10⟩ := (vc_toJcs_iff L _ t).mp h7
      cases b with
      | false => cases hv
      | true =>
        exact ⟨p, h2, h3, h9, ⟨base, sig, _, h6, hexEncode_spec sig, by rw [h10] at h8; exact h8⟩, rfl⟩
    · rintro ⟨p, h2, h3, h6, ⟨base, sig, hex, h7, h8, h9⟩, rfl⟩
      refine ⟨⟨p, base, sig, canonicalText E (vcObject (unsignedVC v)), true, h2, h3, h7, ?_, ?_, rfl⟩, rfl⟩
      · exact C49_vc_canonical L (unsignedVC v) h6
      · rw [← utf8_eq, ← h8.unique]; exact h9
  · intro e
    show EddsaJcs2022.verifyProof E pub v = .error e ↔ _
    cases hp : v.proof with
    | none =>
      have : EddsaJcs2022.verifyProof E pub v =
          .error (.proofVerificationError "missing proof from given document".toList) := by
        have hg : Proofable.getProof v = none := hp
        unfold EddsaJcs2022.verifyProof
        simp only [hg]
      rw [this]
      simp [eq_comm]
    | some p =>
      simp only [reduceCtorEq, false_and, false_or, Option.some.injEq, exists_eq_left']
      exact suite_outcome L pub v p hp (vcChecks v) (vc_docChecks (unsignedVC v)) _
        (fun t ht => ((vc_toJcs_iff L _ t).mp ht).2) e

/-- C71: `verify_proof` of the suite on a presentation. -/
theorem C71_verify_vp {E : Env} (L : E.JcsLaws) (pub : E.EdPub) (v : VP E) :
    (∀ r, ((EddsaJcs2022.suite E (VP E)).verifyProof pub v = .ok r ∧ r.verified = true) ↔
      ∃ p, v.proof = some p ∧ GoodOptions E p ∧ VPComplete v ∧
        Accepts E pub (message E (optionBytes E (unvalued p)) (vpBytes (unsignedVP v))) p.proofValue ∧
        r = ⟨true, some (unsignedVP v)⟩) ∧
    ∀ e, (EddsaJcs2022.suite E (VP E)).verifyProof pub v = .error e ↔
      (v.proof = none ∧ e = .proofVerificationError "missing proof from given document".toList) ∨
      ∃ p, v.proof = some p ∧ FirstFails ([valueCheck E p] ++ (suiteChecks p ++ (vpChecks v ++
        (createdChecks E p ++ [signatureCheck E pub p (vpBytes (unsignedVP v))])))) e := by
  refine ⟨?_, ?_⟩
  · intro r
    show (EddsaJcs2022.verifyProof E pub v = .ok r ∧ _) ↔ _
    rw [suite_ok_iff L]
    constructor
    · rintro ⟨⟨p, base, sig, t, b, h2, h3, h6, h7, h8, rfl⟩, hv⟩
      obtain ⟨h9, h10⟩ := (vp_toJcs_iff L _ t).mp h7
      cases b with
      | false => cases hv
      | true =>
        exact ⟨p, h2, h3, h9, ⟨base, sig, _, h6, hexEncode_spec sig, by rw [h10] at h8; exact h8⟩, rfl⟩
    · rintro ⟨p, h2, h3, h6, ⟨base, sig, hex, h7, h8, h9⟩, rfl⟩
      refine ⟨⟨p, base, sig, canonicalText E (vpObject (unsignedVP v)), true, h2, h3, h7, ?_, ?_, rfl⟩, rfl⟩
      · exact C49_vp_canonical L (unsignedVP v) h6
      · rw [← utf8_eq, ← h8.unique]; exact h9
  · intro e
    show EddsaJcs2022.verifyProof E pub v = .error e ↔ _
    cases hp : v.proof with
    | none =>
      have : EddsaJcs2022.verifyProof E pub v =
          .error (.proofVerificationError "missing proof from given document".toList) := by
        have hg : Proofable.getProof v = none := hp
        unfold EddsaJcs2022.verifyProof
        simp only [hg]
      rw [this]
      simp [eq_comm]
    | some p =>
      simp only [reduceCtorEq, false_and, false_or, Option.some.injEq, exists_eq_left']
      exact suite_outcome L pub v p hp (vpChecks v) (vp_docChecks (unsignedVP v)) _
        (fun t ht => ((vp_toJcs_iff L _ t).mp ht).2) e

/-- C71: the suite alone, on a credential: whatever the purpose, also the unknown one, its proofs verify. With the
unknown purpose no key, bytes or expectation makes `Integrity` accept the same document. -/
theorem C71_roundtrip_vc {E : Env} (L : E.JcsLaws) (K : E.EdLaws) (kp : E.EdKP) (v : VC E) (opts : Proof)
    (hv : VCComplete v) (hproof : v.proof = none) (ho : GoodOptions E opts) (hval : opts.proofValue = []) :
    ∃ p, (EddsaJcs2022.suite E (VC E)).createProof kp v opts = .ok p ∧
      (EddsaJcs2022.suite E (VC E)).verifyProof (E.edPub kp) ⟨v.contexts, v.types, v.credentialSubject, some p, v.id, v.issuer⟩ = .ok ⟨true, some v⟩ ∧
      (opts.proofPurpose = .unknown → ∀ pub bs purpose r, VC.parseJsonBytes E bs = .ok ⟨v.contexts, v.types, v.credentialSubject, some p, v.id, v.issuer⟩ →
        verify E (VC E) pub bs purpose ≠ .ok r) := by
  obtain ⟨c, t, s, pr, i, iss⟩ := v
  obtain ⟨oi, ot, op, ov, om, oc, oe, os⟩ := opts
  simp only at hproof hval
  subst hproof hval
  obtain ⟨text, htext⟩ : ∃ text, IsMultibase58 (E.edSign kp (message E
    (optionBytes E ⟨oi, ot, op, [], om, oc, oe, os⟩) (vcBytes (E := E) ⟨c, t, s, none, i, iss⟩))) text :=
      ⟨_, multibaseEncode58_spec _⟩
  refine ⟨_, ((C71_create_vc L kp _ _).1 _).mpr ⟨ho, hv, text, htext, rfl⟩,
    (((C71_verify_vc L _ ⟨c, t, s, some ⟨oi, ot, op, text, om, oc, oe, os⟩, i, iss⟩).1 ⟨true, _⟩).mpr ⟨_, rfl, ⟨ho.1, ho.2, ho.3⟩, hv, ?_, rfl⟩).1, ?_⟩
  · exact ⟨_, _, _, .base58 htext, hexEncode_spec _, K.verify_sign kp _⟩
  · intro hu pub bs purpose r hb h
    obtain ⟨d, q, _, _, _, _, h1, h2, _, h4, h5, _⟩ := (verify_ok_iff L _ _ _ _).mp h
    have h1' : VC.parseJsonBytes E bs = .ok d := h1
    rw [hb] at h1'
    cases h1'
    cases h2
    exact h5 (h4 ▸ hu)

/-- C71: the suite alone, on a presentation. -/
theorem C71_roundtrip_vp {E : Env} (L : E.JcsLaws) (K : E.EdLaws) (kp : E.EdKP) (v : VP E) (opts : Proof)
    (hv : VPComplete v) (hproof : v.proof = none) (ho : GoodOptions E opts) (hval : opts.proofValue = []) :
    ∃ p, (EddsaJcs2022.suite E (VP E)).createProof kp v opts = .ok p ∧
      (EddsaJcs2022.suite E (VP E)).verifyProof (E.edPub kp) ⟨v.contexts, v.types, v.verifiableCredential, some p, v.holder⟩ = .ok ⟨true, some v⟩ ∧
      (opts.proofPurpose = .unknown → ∀ pub bs purpose r, VP.parseJsonBytes E bs = .ok ⟨v.contexts, v.types, v.verifiableCredential, some p, v.holder⟩ →
        verify E (VP E) pub bs purpose ≠ .ok r) := by
  obtain ⟨c, t, s, pr, i⟩ := v
  obtain ⟨oi, ot, op, ov, om, oc, oe, os⟩ := opts
  simp only at hproof hval
  subst hproof hval
  obtain ⟨text, htext⟩ : ∃ text, IsMultibase58 (E.edSign kp (message E
    (optionBytes E ⟨oi, ot, op, [], om, oc, oe, os⟩) (vpBytes (E := E) ⟨c, t, s, none, i⟩))) text :=
      ⟨_, multibaseEncode58_spec _⟩
  refine ⟨_, ((C71_create_vp L kp _ _).1 _).mpr ⟨ho, hv, text, htext, rfl⟩,
    (((C71_verify_vp L _ ⟨c, t, s, some ⟨oi, ot, op, text, om, oc, oe, os⟩, i⟩).1 ⟨true, _⟩).mpr ⟨_, rfl, ⟨ho.1, ho.2, ho.3⟩, hv, ?_, rfl⟩).1, ?_⟩
  · exact ⟨_, _, _, .base58 htext, hexEncode_spec _, K.verify_sign kp _⟩
  · intro hu pub bs purpose r hb h
    obtain ⟨d, q, _, _, _, _, h1, h2, _, h4, h5, _⟩ := (verify_ok_iff L _ _ _ _).mp h
    have h1' : VP.parseJsonBytes E bs = .ok d := h1
    rw [hb] at h1'
    cases h1'
    cases h2
    exact h5 (h4 ▸ hu)

/-- The sample documents with the unknown purpose. -/
example : ∃ p, (EddsaJcs2022.suite Toy.env (VC Toy.env)).createProof (7 : UInt8) toyVC
      { toyProof with proofPurpose := .unknown } = .ok p ∧
    (EddsaJcs2022.suite Toy.env (VC Toy.env)).verifyProof (7 : UInt8) { toyVC with proof := some p } = .ok ⟨true, some toyVC⟩ := by
  obtain ⟨p, h1, h2, _⟩ := C71_roundtrip_vc Toy.jcsLaws Toy.edLaws (7 : UInt8) toyVC
    { toyProof with proofPurpose := .unknown } toyVC_complete rfl
    ⟨toyProof_good.1, toyProof_good.2, toyProof_good.3⟩ rfl
  exact ⟨p, h1, h2⟩
example : ∃ p, (EddsaJcs2022.suite Toy.env (VP Toy.env)).createProof (7 : UInt8) toyVP
      { toyProof with proofPurpose := .unknown } = .ok p ∧
    (EddsaJcs2022.suite Toy.env (VP Toy.env)).verifyProof (7 : UInt8) { toyVP with proof := some p } = .ok ⟨true, some toyVP⟩ := by
  obtain ⟨p, h1, h2, _⟩ := C71_roundtrip_vp Toy.jcsLaws Toy.edLaws (7 : UInt8) toyVP
    { toyProof with proofPurpose := .unknown } toyVP_complete rfl
    ⟨toyProof_good.1, toyProof_good.2, toyProof_good.3⟩ rfl
  exact ⟨p, h1, h2⟩

/-- A document without a proof: the suite's own text. -/
example : (EddsaJcs2022.suite Toy.env (VC Toy.env)).verifyProof (7 : UInt8) toyVC =
    .error (.proofVerificationError "missing proof from given document".toList) :=
  ((C71_verify_vc Toy.jcsLaws _ _).2 _).mpr (.inl ⟨rfl, rfl⟩)

end Verif.Props
