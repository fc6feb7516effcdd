import Verif.Props.Interop
import Verif.Props.Careful
import Verif.Props.Generic

/-
C103: proofs by the W3C Recommendation "Data Integrity EdDSA Cryptosuites v1.0", section 3.3, through `Integrity`.

C73 shows that the suite built into the library makes and accepts no proof of the Recommendation. `CryptoSuiteBuilder`
is a public trait (core/src/verifiable/proof/types.rs:180-196) and `Integrity::new` takes any implementation
(core/src/verifiable/proof/integrity.rs:31-36), so a caller can bring a suite. `W3C.suite` is such an implementation;
it is not part of /repo. It uses the library's types, `to_jcs`, `serde_jcs`, SHA-256 and the key functions.

The library's `Proof` has no member `@context`: what the reader finds there is lost before the suite is asked
(core/src/verifiable/proof/mod.rs:36-66). The suite therefore leaves it out when signing, which the Recommendation
allows a verifier to meet, and when verifying it tries no context and then every beginning of the document's contexts,
the only values for which the Recommendation accepts (3.3.2, step 4).
-/

namespace Verif.W3C
open Verif

/-- The contexts of a document, which a caller can read and replace: `contexts` is a public field of `VC`
(core/src/verifiable/vc.rs:21-22) and `VP` (core/src/verifiable/vp.rs:19-20). -/
class HasContexts (T : Type) where
  contexts : T → List Str
  withContexts : T → List Str → T

instance (E : Env) : HasContexts (VC E) := ⟨VC.contexts, fun v c => { v with contexts := c }⟩
instance (E : Env) : HasContexts (VP E) := ⟨VP.contexts, fun v c => { v with contexts := c }⟩

/-- 3.3.5: the serialised proof without `proofValue`, with the context. -/
def configTree {N : Type} (ctx : Option (List Str)) (p : Proof) : Json N :=
  match (p.toTree : Json N) with
  | .obj ms => .obj (optMember "@context".toList strArr ctx ++ ms.filter fun m => m.1 != "proofValue".toList)
  | t => t

/-- 3.3.4. -/
def hashData (E : Env) (ctx : Option (List Str)) (p : Proof) (doc : Str) : Bytes :=
  E.sha256 (utf8Encode (jcsText E (configTree ctx p))) ++ E.sha256 (utf8Encode doc)

/-- The conditions of 3.3.5 on the options; `created` may be absent. -/
def check (isDate : Str → Bool) (p : Proof) : Except ProofError Unit :=
  match p.validateType with
  | .error e => .error e
  | .ok _ =>
    match p.validateCryptosuite with
    | .error e => .error e
    | .ok _ =>
      match p.created with
      | none => .ok ()
      | some c => if isDate c then .ok () else .error (.proofGenerationError "created is no dateTimeStamp".toList)

section
variable {T : Type} [Proofable T]

/-- 3.3.1, without the context. -/
def createProof (E : Env) (isDate : Str → Bool) (kp : E.EdKP) (doc : T) (opts : Proof) : Except ProofError Proof :=
  match check isDate opts with
  | .error e => .error e
  | .ok _ =>
    match Proofable.toJcs (Proofable.removeProof doc) with
    | .error e => .error (.proofGenerationError e.display)
    | .ok t => .ok (opts.setSignatureAsString (multibaseEncode58 (E.edSign kp (hashData E none opts t))))

variable [HasContexts T]

/-- 3.3.2, steps 1 and 4: the unsecured document for the context of the proof. -/
def unsecured (doc : T) : Option (List Str) → T
  | none => Proofable.removeProof doc
  | some c => HasContexts.withContexts (Proofable.removeProof doc) c

/-- 3.3.2, steps 5 to 8, for one context of the proof. -/
def matching (E : Env) (pub : E.EdPub) (p : Proof) (sig : Bytes) (doc : T) (ctx : Option (List Str)) : Bool :=
  match Proofable.toJcs (unsecured doc ctx) with
  | .error _ => false
  | .ok t =>
    match E.edVerify pub (hashData E ctx p t) (hexEncode sig) with
    | .ok b => b
    | .error _ => false

/-- The contexts a proof of this document can have. -/
def candidates (doc : T) : List (Option (List Str)) := none :: (HasContexts.contexts doc).inits.map some

/-- 3.3.2. -/
def verifyProof (E : Env) (isDate : Str → Bool) (pub : E.EdPub) (doc : T) : Except ProofError (VerificationResult T) :=
  match Proofable.getProof doc with
  | none => .error (.proofVerificationError "missing proof".toList)
  | some p =>
    match check isDate p with
    | .error e => .error e
    | .ok _ =>
      if p.proofValue.head? ≠ some 'z' then .error (.proofVerificationError "proof value is not base58btc".toList)
      else
        match E.mbDecode p.proofValue with
        | none => .error (.proofVerificationError (E.msg (.multibase p.proofValue)))
        | some (_, sig) =>
          match (candidates doc).find? (matching E pub p sig doc) with
          | none => .ok VerificationResult.unverifiedResult
          | some ctx => .ok (VerificationResult.verifiedResult (unsecured doc ctx))

/-- The suite for `Integrity`. -/
def suite (E : Env) (isDate : Str → Bool) (T : Type) [Proofable T] [HasContexts T] : CryptoSuite E T :=
  { createProof := createProof E isDate, verifyProof := verifyProof E isDate }

end
end Verif.W3C

namespace Verif.Spec
open Verif

/-- 3.3.2 and 3.3.5 of the Recommendation: a document with these contexts and a proof `p` whose member `@context` is
`ctx` is accepted; `doc` are the canonical bytes of the document without proof, with the contexts of the proof if it
has any. -/
structure ConformsW3C (E : Env) (isDate : Str → Bool) (pub : E.EdPub) (ctx : Option (List Str)) (p : Proof)
    (contexts : List Str) (doc : Bytes) : Prop where
  type : p.typ = "DataIntegrityProof".toList
  suite : p.cryptosuite = some "eddsa-jcs-2022".toList
  created : ∀ c, p.created = some c → isDate c = true
  starts : ∀ c, ctx = some c → ∃ more, contexts = c ++ more
  signed : W3CVerifies E pub ctx p doc

/-- The credential without proof, with the contexts of the proof if it has any. -/
def signedVC {E : Env} (v : VC E) (ctx : Option (List Str)) : VC E :=
  ⟨ctx.getD v.contexts, v.types, v.credentialSubject, none, v.id, v.issuer⟩

/-- The presentation without proof, with the contexts of the proof if it has any. -/
def signedVP {E : Env} (v : VP E) (ctx : Option (List Str)) : VP E :=
  ⟨ctx.getD v.contexts, v.types, v.verifiableCredential, none, v.holder⟩

/-- The full claim of C73 for credentials, of any signing function. -/
def SignsByRecommendation (E : Env) (add : E.EdKP → VC E → Proof → Except ProofError (VC E)) : Prop :=
  ∀ (kp : E.EdKP) (v : VC E) (opts : Proof) (out : VC E) (p : Proof), opts.proofValue = [] → v.proof = none →
    add kp v opts = .ok out → out.proof = some p →
    W3CVerifies E (E.edPub kp) none p (vcBytes v) ∨ W3CVerifies E (E.edPub kp) (some v.contexts) p (vcBytes v)

end Verif.Spec

namespace Verif.Props
open Verif Spec

/-! ### The steps of the suite -/

theorem configTree_eq {N : Type} (ctx : Option (List Str)) (p : Proof) :
    (W3C.configTree ctx p : Json N) = config ctx none p := by
  obtain ⟨i, t, pp, pv, m, c, e, s⟩ := p
  cases ctx <;> cases c <;> cases e <;> cases s <;> cases pp <;> rfl

theorem hashData_eq {E : Env} (L : E.JcsLaws) (ctx : Option (List Str)) (p : Proof) (doc : Str) :
    W3C.hashData E ctx p doc = E.sha256 (configBytes E ctx none p) ++ E.sha256 (utf8Encode doc) := by
  unfold W3C.hashData configBytes
  rw [configTree_eq, jcsText_eq L _ (config_distinct ..), utf8_eq]

theorem configBytes_value (E : Env) (ctx : Option (List Str)) (p : Proof) (t : Str) :
    configBytes E ctx none { p with proofValue := t } = configBytes E ctx none p := rfl

theorem check_iff (isDate : Str → Bool) (p : Proof) : W3C.check isDate p = .ok () ↔
    p.typ = "DataIntegrityProof".toList ∧ p.cryptosuite = some "eddsa-jcs-2022".toList ∧
      ∀ c, p.created = some c → isDate c = true := by
  obtain ⟨_, t, _, _, _, cr, _, s⟩ := p
  unfold W3C.check Proof.validateType Proof.validateCryptosuite DEFAULT_PROOF_TYPE DEFAULT_PROOF_CRYPTOSUITE
  generalize "DataIntegrityProof".toList = a
  generalize "eddsa-jcs-2022".toList = b
  simp only
  by_cases h1 : t = a
  · cases s with
    | none => simp [h1]
    | some s =>
      by_cases h2 : s = b
      · cases cr with
        | none => simp [h1, h2]
        | some c => by_cases h3 : isDate c = true <;> simp [h1, h2, h3]
      · simp [h1, h2]
  · simp [h1]

theorem matching_iff {E : Env} (L : E.JcsLaws) {T : Type} [Proofable T] [W3C.HasContexts T] (pub : E.EdPub) (p : Proof) (sig : Bytes)
    (doc : T) (ctx : Option (List Str)) : W3C.matching E pub p sig doc ctx = true ↔
      ∃ t, Proofable.toJcs (W3C.unsecured doc ctx) = .ok t ∧
        E.edVerify pub (E.sha256 (configBytes E ctx none p) ++ E.sha256 (utf8Encode t)) (hexEncode sig) = .ok true := by
  unfold W3C.matching
  cases ht : (Proofable.toJcs (W3C.unsecured doc ctx) : Except DIDError Str) with
  | error e => simp
  | ok t =>
    simp only [hashData_eq L, Except.ok.injEq, exists_eq_left']
    cases E.edVerify pub (E.sha256 (configBytes E ctx none p) ++ E.sha256 (utf8Encode t)) (hexEncode sig) <;> simp

theorem mem_candidates {T : Type} [W3C.HasContexts T] (doc : T) (ctx : Option (List Str)) :
    ctx ∈ W3C.candidates doc ↔ ∀ c, ctx = some c → ∃ more, W3C.HasContexts.contexts doc = c ++ more := by
  unfold W3C.candidates
  cases ctx with
  | none => simp
  | some c => simp [List.mem_inits, List.IsPrefix, eq_comm]

/-- `verify_proof` over the suite, for any document type. -/
theorem w3c_verify {E : Env} {T : Type} [Proofable T] [W3C.HasContexts T] (isDate : Str → Bool) (pub : E.EdPub)
    (bs : Bytes) (purpose : ProofPurpose) (r : VerificationResult T) :
    ((Integrity.new (W3C.suite E isDate T)).verifyProof pub bs purpose = .ok r ∧ r.verified = true) ↔
      ∃ doc p sig ctx, (Proofable.parseJsonBytes bs : Except ProofError T) = .ok doc ∧ Proofable.getProof doc = some p ∧
        p.proofPurpose = purpose ∧ purpose ≠ .unknown ∧ W3C.check isDate p = .ok () ∧ IsMultibase58 sig p.proofValue ∧
        (W3C.candidates doc).find? (W3C.matching E pub p sig doc) = some ctx ∧
        r = ⟨true, some (W3C.unsecured doc ctx)⟩ := by
  have hs : ∀ doc, (W3C.suite E isDate T).verifyProof pub doc = W3C.verifyProof E isDate pub doc := fun _ => rfl
  constructor
  · rintro ⟨h, hv⟩
    rcases (C70_verify _ pub bs purpose _).mp h with ⟨e, _, h2⟩ | ⟨doc, hd, ⟨_, h2⟩ | ⟨p, hp, h2⟩⟩
    · cases h2
    · cases h2
    · rcases h2 with ⟨_, h2⟩ | ⟨_, _, h2⟩ | ⟨_, _, _, h2⟩ | ⟨_, hu, hq, h2⟩
      · cases h2
      · cases h2
      · cases h2
      · rw [hs] at h2
        unfold W3C.verifyProof at h2
        rw [hp] at h2
        simp only at h2
        split at h2
        · cases h2
        · rename_i u hc
          split at h2
          · cases h2
          · rename_i hz
            simp only [ne_eq, Decidable.not_not] at hz
            split at h2
            · cases h2
            · rename_i base sig hm
              split at h2
              · cases h2; cases hv
              · rename_i ctx hf
                exact ⟨doc, p, sig, ctx, hd, hp, hq, hq ▸ hu, hc, multibase_z ((mbDecode_iff ..).mp hm) hz, hf, Except.ok.inj h2⟩
  · rintro ⟨doc, p, sig, ctx, hd, hp, hq, hu, hc, hm, hf, rfl⟩
    refine ⟨(C70_verify _ pub bs purpose _).mpr (.inr ⟨doc, hd, .inr ⟨p, hp, .inr (.inr (.inr ⟨?_, hq ▸ hu, hq, ?_⟩))⟩⟩), rfl⟩
    · rw [((check_iff isDate p).mp hc).1]; decide
    · rw [hs]
      unfold W3C.verifyProof
      rw [hp]
      simp only [hc]
      rw [if_neg (by rw [head_of_multibase58 hm]; simp), (mbDecode_iff ..).mpr (.base58 hm)]
      simp only [hf]
      rfl

/-- Some context is found exactly if one of those possible gives an accepted signature. -/
theorem found_iff {E : Env} (L : E.JcsLaws) {T : Type} [Proofable T] [W3C.HasContexts T] (pub : E.EdPub) (p : Proof) (sig : Bytes) (doc : T) :
    (∃ ctx, (W3C.candidates doc).find? (W3C.matching E pub p sig doc) = some ctx) ↔
      ∃ ctx t, (∀ c, ctx = some c → ∃ more, W3C.HasContexts.contexts doc = c ++ more) ∧
        Proofable.toJcs (W3C.unsecured doc ctx) = .ok t ∧
        E.edVerify pub (E.sha256 (configBytes E ctx none p) ++ E.sha256 (utf8Encode t)) (hexEncode sig) = .ok true := by
  rw [← Option.isSome_iff_exists, List.find?_isSome]
  constructor
  · rintro ⟨ctx, h1, h2⟩
    obtain ⟨t, h3, h4⟩ := (matching_iff L pub p sig doc ctx).mp h2
    exact ⟨ctx, t, (mem_candidates doc ctx).mp h1, h3, h4⟩
  · rintro ⟨ctx, t, h1, h3, h4⟩
    exact ⟨ctx, (mem_candidates doc ctx).mpr h1, (matching_iff L pub p sig doc ctx).mpr ⟨t, h3, h4⟩⟩

theorem unsecured_vc {E : Env} (v : VC E) (ctx : Option (List Str)) : W3C.unsecured v ctx = signedVC v ctx := by
  cases ctx <;> rfl

theorem unsecured_vp {E : Env} (v : VP E) (ctx : Option (List Str)) : W3C.unsecured v ctx = signedVP v ctx := by
  cases ctx <;> rfl

/-! ### C103: what is accepted -/

/-- C103 (credentials): `Integrity` with the suite accepts exactly the credentials the Recommendation accepts for some
member `@context` of the proof. -/
theorem C103_accepts_vc {E : Env} (L : E.JcsLaws) (isDate : Str → Bool) (pub : E.EdPub) (bs : Bytes) (purpose : ProofPurpose) :
    (∃ r, (Integrity.new (W3C.suite E isDate (VC E))).verifyProof pub bs purpose = .ok r ∧ r.verified = true) ↔
      ∃ v p ctx, VC.parseJsonBytes E bs = .ok v ∧ v.proof = some p ∧ p.proofPurpose = purpose ∧ purpose ≠ .unknown ∧
        VCComplete (signedVC v ctx) ∧ ConformsW3C E isDate pub ctx p v.contexts (vcBytes (signedVC v ctx)) := by
  constructor
  · rintro ⟨r, h⟩
    obtain ⟨v, p, sig, ctx, h1, h2, h3, h4, h5, h6, h7, _⟩ := (w3c_verify isDate pub bs purpose r).mp h
    obtain ⟨t, a2, a3⟩ := (matching_iff L pub p sig v ctx).mp (List.find?_some h7)
    have a1 := (mem_candidates v ctx).mp (List.mem_of_find?_eq_some h7)
    obtain ⟨c1, c2, c3⟩ := (check_iff isDate p).mp h5
    rw [unsecured_vc] at a2
    obtain ⟨b1, b2⟩ := (vc_toJcs_iff L _ t).mp a2
    exact ⟨v, p, ctx, h1, h2, h3, h4, b1, c1, c2, c3, a1, sig, hexEncode sig, h6, hexEncode_spec _, b2 ▸ a3⟩
  · rintro ⟨v, p, ctx, h1, h2, h3, h4, b1, c1, c2, c3, a1, sig, hex, h6, h7, h8⟩
    obtain ⟨t, ht⟩ := (C24_serialise_iff (signedVC v ctx)).2.1.mpr b1
    obtain ⟨_, b2⟩ := (vc_toJcs_iff L _ t).mp ht
    obtain ⟨ctx', hf⟩ := (found_iff L pub p sig v).mpr ⟨ctx, t, a1, (unsecured_vc v ctx).symm ▸ ht, by
      rw [b2, ← h7.unique.trans (hexEncode_spec sig).unique.symm]; exact h8⟩
    exact ⟨_, (w3c_verify isDate pub bs purpose _).mpr
      ⟨v, p, sig, ctx', h1, h2, h3, h4, (check_iff isDate p).mpr ⟨c1, c2, c3⟩, h6, hf, rfl⟩⟩

/-- C103 (presentations). -/
theorem C103_accepts_vp {E : Env} (L : E.JcsLaws) (isDate : Str → Bool) (pub : E.EdPub) (bs : Bytes) (purpose : ProofPurpose) :
    (∃ r, (Integrity.new (W3C.suite E isDate (VP E))).verifyProof pub bs purpose = .ok r ∧ r.verified = true) ↔
      ∃ v p ctx, VP.parseJsonBytes E bs = .ok v ∧ v.proof = some p ∧ p.proofPurpose = purpose ∧ purpose ≠ .unknown ∧
        VPComplete (signedVP v ctx) ∧ ConformsW3C E isDate pub ctx p v.contexts (vpBytes (signedVP v ctx)) := by
  constructor
  · rintro ⟨r, h⟩
    obtain ⟨v, p, sig, ctx, h1, h2, h3, h4, h5, h6, h7, _⟩ := (w3c_verify isDate pub bs purpose r).mp h
    obtain ⟨t, a2, a3⟩ := (matching_iff L pub p sig v ctx).mp (List.find?_some h7)
    have a1 := (mem_candidates v ctx).mp (List.mem_of_find?_eq_some h7)
    obtain ⟨c1, c2, c3⟩ := (check_iff isDate p).mp h5
    rw [unsecured_vp] at a2
    obtain ⟨b1, b2⟩ := (vp_toJcs_iff L _ t).mp a2
    exact ⟨v, p, ctx, h1, h2, h3, h4, b1, c1, c2, c3, a1, sig, hexEncode sig, h6, hexEncode_spec _, b2 ▸ a3⟩
  · rintro ⟨v, p, ctx, h1, h2, h3, h4, b1, c1, c2, c3, a1, sig, hex, h6, h7, h8⟩
    obtain ⟨t, ht⟩ := (C25_serialise_iff (signedVP v ctx)).2.1.mpr b1
    obtain ⟨_, b2⟩ := (vp_toJcs_iff L _ t).mp ht
    obtain ⟨ctx', hf⟩ := (found_iff L pub p sig v).mpr ⟨ctx, t, a1, (unsecured_vp v ctx).symm ▸ ht, by
      rw [b2, ← h7.unique.trans (hexEncode_spec sig).unique.symm]; exact h8⟩
    exact ⟨_, (w3c_verify isDate pub bs purpose _).mpr
      ⟨v, p, sig, ctx', h1, h2, h3, h4, (check_iff isDate p).mpr ⟨c1, c2, c3⟩, h6, hf, rfl⟩⟩

/-- C103 (credentials): what is returned is the document as the Recommendation says: without proof, with the contexts
of the proof, and the Recommendation accepts it for these. -/
theorem C103_returns_vc {E : Env} (L : E.JcsLaws) (isDate : Str → Bool) (pub : E.EdPub) (bs : Bytes) (purpose : ProofPurpose)
    (r : VerificationResult (VC E)) (h : (Integrity.new (W3C.suite E isDate (VC E))).verifyProof pub bs purpose = .ok r)
    (hv : r.verified = true) :
    ∃ v p ctx, VC.parseJsonBytes E bs = .ok v ∧ v.proof = some p ∧ r.document = some (signedVC v ctx) ∧
      ConformsW3C E isDate pub ctx p v.contexts (vcBytes (signedVC v ctx)) := by
  obtain ⟨v, p, sig, ctx, h1, h2, h3, h4, h5, h6, h7, rfl⟩ := (w3c_verify isDate pub bs purpose r).mp ⟨h, hv⟩
  obtain ⟨t, a2, a3⟩ := (matching_iff L pub p sig v ctx).mp (List.find?_some h7)
  have a1 := (mem_candidates v ctx).mp (List.mem_of_find?_eq_some h7)
  obtain ⟨c1, c2, c3⟩ := (check_iff isDate p).mp h5
  rw [unsecured_vc] at a2
  obtain ⟨_, b2⟩ := (vc_toJcs_iff L _ t).mp a2
  exact ⟨v, p, ctx, h1, h2, by rw [unsecured_vc], c1, c2, c3, a1, sig, hexEncode sig, h6, hexEncode_spec _, b2 ▸ a3⟩

/-- C103 (presentations). -/
theorem C103_returns_vp {E : Env} (L : E.JcsLaws) (isDate : Str → Bool) (pub : E.EdPub) (bs : Bytes) (purpose : ProofPurpose)
    (r : VerificationResult (VP E)) (h : (Integrity.new (W3C.suite E isDate (VP E))).verifyProof pub bs purpose = .ok r)
    (hv : r.verified = true) :
    ∃ v p ctx, VP.parseJsonBytes E bs = .ok v ∧ v.proof = some p ∧ r.document = some (signedVP v ctx) ∧
      ConformsW3C E isDate pub ctx p v.contexts (vpBytes (signedVP v ctx)) := by
  obtain ⟨v, p, sig, ctx, h1, h2, h3, h4, h5, h6, h7, rfl⟩ := (w3c_verify isDate pub bs purpose r).mp ⟨h, hv⟩
  obtain ⟨t, a2, a3⟩ := (matching_iff L pub p sig v ctx).mp (List.find?_some h7)
  have a1 := (mem_candidates v ctx).mp (List.mem_of_find?_eq_some h7)
  obtain ⟨c1, c2, c3⟩ := (check_iff isDate p).mp h5
  rw [unsecured_vp] at a2
  obtain ⟨_, b2⟩ := (vp_toJcs_iff L _ t).mp a2
  exact ⟨v, p, ctx, h1, h2, by rw [unsecured_vp], c1, c2, c3, a1, sig, hexEncode sig, h6, hexEncode_spec _, b2 ▸ a3⟩

/-! ### C103: what is signed -/

theorem config_inj {E : Env} (L : E.JcsLaws) {ctx ctx' : Option (List Str)} {p q : Proof}
    (h : configBytes E ctx none p = configBytes E ctx' none q) : ctx = ctx' ∧ unvalued p = unvalued q := by
  have f := object_at (canonTree_of_bytes L (config_distinct ..) (config_distinct ..) h) (by simp) (by simp)
  obtain ⟨i, t, pp, pv, m, c, e, s⟩ := p
  obtain ⟨i', t', pp', pv', m', c', e', s'⟩ := q
  have h0 : ctx = ctx' := by
    have := f 0 rfl rfl
    cases ctx <;> cases ctx' <;> simp at this
    · rfl
    · rw [strings_inj this]
  have h1 := str_inj (Option.some.inj (f 1 rfl rfl))
  have h2 := str_inj (Option.some.inj (f 2 rfl rfl))
  have h3 := purposeText_inj (str_inj (Option.some.inj (f 3 rfl rfl)))
  have h5 := str_inj (Option.some.inj (f 5 rfl rfl))
  have h6 := optStr_inj (f 6 rfl rfl)
  have h7 := optStr_inj (f 7 rfl rfl)
  have h8 := optStr_inj (f 8 rfl rfl)
  simp only at h1 h2 h3 h5 h6 h7 h8
  subst h1 h2 h3 h5 h6 h7 h8
  exact ⟨h0, rfl⟩

/-- `add_proof` over the suite, for any document type. -/
theorem w3c_add {E : Env} (L : E.JcsLaws) {T : Type} [Proofable T] [W3C.HasContexts T] (isDate : Str → Bool) (kp : E.EdKP)
    (doc : T) (opts : Proof) (out : T) :
    (Integrity.new (W3C.suite E isDate T)).addProof kp doc opts = .ok out ↔
      W3C.check isDate opts = .ok () ∧ opts.proofPurpose ≠ .unknown ∧ ∃ t text,
        Proofable.toJcs (Proofable.removeProof doc) = .ok t ∧
        IsMultibase58 (E.edSign kp (E.sha256 (configBytes E none none opts) ++ E.sha256 (utf8Encode t))) text ∧
        out = Proofable.setupProof doc { opts with proofValue := text } := by
  have hs : (W3C.suite E isDate T).createProof kp doc opts = W3C.createProof E isDate kp doc opts := rfl
  rw [(C70_add _ kp doc opts).1, hs]
  unfold W3C.createProof
  constructor
  · rintro ⟨p, h1, _, h3, h4⟩
    split at h1
    · cases h1
    · rename_i u hc
      split at h1
      · cases h1
      · rename_i t ht
        cases h1
        refine ⟨hc, h3, t, _, ht, multibaseEncode58_spec _, ?_⟩
        rw [← hashData_eq L]
        exact h4
  · rintro ⟨hc, hu, t, text, ht, hm, rfl⟩
    rw [hc, ht]
    refine ⟨_, rfl, ?_, hu, ?_⟩
    · show opts.typ ≠ []
      rw [((check_iff isDate opts).mp hc).1]; decide
    · rw [hm.unique, ← hashData_eq L]; rfl

/-- `verify_proof` over the suite finds the credential or presentation that was signed through the suite. -/
theorem w3c_own {E : Env} (L : E.JcsLaws) (K : E.EdLaws) {T : Type} [Proofable T] [W3C.HasContexts T] (isDate : Str → Bool)
    (kp : E.EdKP) (doc : T) (p : Proof) (t : Str) (bs : Bytes)
    (hb : (Proofable.parseJsonBytes bs : Except ProofError T) = .ok doc) (hp : Proofable.getProof doc = some p)
    (hc : W3C.check isDate p = .ok ()) (hu : p.proofPurpose ≠ .unknown) (ht : Proofable.toJcs (Proofable.removeProof doc) = .ok t)
    (hm : IsMultibase58 (E.edSign kp (E.sha256 (configBytes E none none p) ++ E.sha256 (utf8Encode t))) p.proofValue) :
    (Integrity.new (W3C.suite E isDate T)).verifyProof (E.edPub kp) bs p.proofPurpose =
      .ok ⟨true, some (Proofable.removeProof doc)⟩ := by
  refine ((w3c_verify isDate _ bs _ _).mpr ⟨doc, p, _, none, hb, hp, rfl, hu, hc, hm, ?_, rfl⟩).1
  unfold W3C.candidates
  rw [List.find?_cons_of_pos]
  exact (matching_iff L _ p _ doc none).mpr ⟨t, ht, K.verify_sign kp _⟩

/-- C103 (credentials): `add_proof` with the suite, exactly: the signature is over the message of the Recommendation. -/
theorem C103_add_vc {E : Env} (L : E.JcsLaws) (isDate : Str → Bool) (kp : E.EdKP) (v : VC E) (opts : Proof) (out : VC E) :
    (Integrity.new (W3C.suite E isDate (VC E))).addProof kp v opts = .ok out ↔
      opts.typ = "DataIntegrityProof".toList ∧ opts.cryptosuite = some "eddsa-jcs-2022".toList ∧
      (∀ c, opts.created = some c → isDate c = true) ∧ opts.proofPurpose ≠ .unknown ∧ VCComplete v ∧
      ∃ text, IsMultibase58 (E.edSign kp (E.sha256 (configBytes E none none opts) ++ E.sha256 (vcBytes (unsignedVC v)))) text ∧
        out = ⟨v.contexts, v.types, v.credentialSubject, some { opts with proofValue := text }, v.id, v.issuer⟩ := by
  rw [w3c_add L, check_iff]
  constructor
  · rintro ⟨⟨h1, h2, h3⟩, h4, t, text, h5, h6, rfl⟩
    obtain ⟨h7, h8⟩ := (vc_toJcs_iff L _ t).mp h5
    refine ⟨h1, h2, h3, h4, h7, text, ?_, rfl⟩
    rw [h8] at h6
    exact h6
  · rintro ⟨h1, h2, h3, h4, h5, text, h6, rfl⟩
    obtain ⟨t, ht⟩ := (C24_serialise_iff (unsignedVC v)).2.1.mpr h5
    refine ⟨⟨h1, h2, h3⟩, h4, t, text, ht, ?_, rfl⟩
    rw [((vc_toJcs_iff L _ t).mp ht).2]
    exact h6

/-- C103 (credentials): what is signed through the suite, with whatever options and whatever proof it had before, the
Recommendation accepts, and so does `verify_proof` with the suite from every text that reads as it, returning what was
signed. -/
theorem C103_sent_vc {E : Env} (L : E.JcsLaws) (K : E.EdLaws) (isDate : Str → Bool) (kp : E.EdKP) (v : VC E) (opts : Proof)
    (out : VC E) (h : (Integrity.new (W3C.suite E isDate (VC E))).addProof kp v opts = .ok out) :
    ∃ p, out.proof = some p ∧ unvalued p = unvalued opts ∧ unsignedVC out = unsignedVC v ∧
      ConformsW3C E isDate (E.edPub kp) none p out.contexts (vcBytes (unsignedVC v)) ∧
      ∀ bs, VC.parseJsonBytes E bs = .ok out →
        (Integrity.new (W3C.suite E isDate (VC E))).verifyProof (E.edPub kp) bs opts.proofPurpose =
          .ok ⟨true, some (unsignedVC v)⟩ := by
  obtain ⟨h1, h2, h3, h4, h5, text, h6, rfl⟩ := (C103_add_vc L isDate kp v opts out).mp h
  refine ⟨_, rfl, rfl, rfl, ⟨h1, h2, h3, nofun, _, _, h6, hexEncode_spec _, K.verify_sign kp _⟩, fun bs hb => ?_⟩
  obtain ⟨t, ht⟩ := (C24_serialise_iff (unsignedVC v)).2.1.mpr h5
  refine w3c_own L K isDate kp (⟨v.contexts, v.types, v.credentialSubject, some { opts with proofValue := text }, v.id, v.issuer⟩ : VC E) { opts with proofValue := text } t bs hb rfl
    ((check_iff isDate { opts with proofValue := text }).mpr ⟨h1, h2, h3⟩) h4 ht ?_
  rw [((vc_toJcs_iff L _ t).mp ht).2]
  exact h6

/-- C103 (credentials): two accepted documents with one signature have the same options, the same contexts in the proof and are
the same up to number spelling, but for what the Recommendation leaves out; or there is an explicit conflict. -/
theorem C103_one_vc {E : Env} (H : E.HashLaws) (L : E.JcsLaws) (isDate : Str → Bool) (pub : E.EdPub) (ctx ctx' : Option (List Str))
    (p p' : Proof) (v v' : VC E) (sig : Bytes) (hv : VCComplete (signedVC v ctx)) (hv' : VCComplete (signedVC v' ctx'))
    (h : ConformsW3C E isDate pub ctx p v.contexts (vcBytes (signedVC v ctx)))
    (h' : ConformsW3C E isDate pub ctx' p' v'.contexts (vcBytes (signedVC v' ctx')))
    (hs : IsMultibase58 sig p.proofValue) (hs' : IsMultibase58 sig p'.proofValue) :
    (ctx = ctx' ∧ unvalued p = unvalued p' ∧ SameVC (signedVC v ctx) (signedVC v' ctx')) ∨
      Conflict E pub sig (configBytes E ctx none p) (vcBytes (signedVC v ctx)) (configBytes E ctx' none p')
        (vcBytes (signedVC v' ctx')) := by
  obtain ⟨s, x, a1, a2, a3⟩ := h.signed
  obtain ⟨s', x', b1, b2, b3⟩ := h'.signed
  cases isMultibase_bytes (E := E) (.base58 hs) (.base58 a1)
  cases isMultibase_bytes (E := E) (.base58 hs') (.base58 b1)
  rcases same_or_conflict H a2 b2 a3 b3 with ⟨e1, e2⟩ | hc
  · obtain ⟨f1, f2⟩ := config_inj L e1
    exact .inl ⟨f1, f2, vcBytes_same L hv hv' e2⟩
  · exact .inr hc

/-- C103 (credentials): a document signed as the Recommendation says, with its contexts in the proof, is accepted from every
text that reads as it, also with further contexts behind; returned is what was signed, or there is an explicit
conflict. -/
theorem C103_received_vc {E : Env} (H : E.HashLaws) (L : E.JcsLaws) (K : E.EdLaws) (isDate : Str → Bool) (kp : E.EdKP) (v w : VC E) (p : Proof)
    (hv : VCComplete v) (hp : v.proof = none) (ht : p.typ = "DataIntegrityProof".toList)
    (hc : p.cryptosuite = some "eddsa-jcs-2022".toList) (hd : ∀ c, p.created = some c → isDate c = true)
    (hu : p.proofPurpose ≠ .unknown)
    (hs : IsMultibase58 (E.edSign kp (E.sha256 (configBytes E (some v.contexts) none p) ++ E.sha256 (vcBytes v))) p.proofValue)
    (more : List Str) (bs : Bytes) (hb : VC.parseJsonBytes E bs = .ok w) (hw : w = ⟨v.contexts ++ more, v.types, v.credentialSubject, some p, v.id, v.issuer⟩) :
    ∃ r ctx, (Integrity.new (W3C.suite E isDate (VC E))).verifyProof (E.edPub kp) bs p.proofPurpose = .ok r ∧ r.verified = true ∧
      r.document = some (signedVC w ctx) ∧
      (ctx = some v.contexts ∧ signedVC w ctx = v ∨
        ∃ sig, Conflict E (E.edPub kp) sig (configBytes E ctx none p) (vcBytes (signedVC w ctx))
          (configBytes E (some v.contexts) none p) (vcBytes v)) := by
  subst hw
  have e : signedVC (E := E) ⟨v.contexts ++ more, v.types, v.credentialSubject, some p, v.id, v.issuer⟩ (some v.contexts) = v := by
    obtain ⟨_, _, _, pr, _, _⟩ := v
    simp only at hp
    subst hp; rfl
  have g : ConformsW3C E isDate (E.edPub kp) (some v.contexts) p (v.contexts ++ more) (vcBytes v) :=
    ⟨ht, hc, hd, fun c hc => ⟨more, by cases hc; rfl⟩, _, _, hs, hexEncode_spec _, K.verify_sign kp _⟩
  obtain ⟨r, h1, h2⟩ := (C103_accepts_vc L isDate (E.edPub kp) bs p.proofPurpose).mpr
    ⟨_, p, some v.contexts, hb, rfl, rfl, hu, e.symm ▸ hv, e.symm ▸ g⟩
  obtain ⟨w, q, ctx, a1, a2, a3, a4⟩ := C103_returns_vc L isDate (E.edPub kp) bs p.proofPurpose r h1 h2
  rw [hb] at a1; cases a1
  cases a2
  refine ⟨r, ctx, h1, h2, a3, ?_⟩
  obtain ⟨s, x, b1, b2, b3⟩ := a4.signed
  cases isMultibase_bytes (E := E) (.base58 hs) (.base58 b1)
  rcases same_or_conflict H b2 (hexEncode_spec _) b3 (K.verify_sign kp _) with ⟨e1, e2⟩ | hc
  · obtain ⟨f1, _⟩ := config_inj L e1
    exact .inl ⟨f1, f1 ▸ e⟩
  · exact .inr ⟨_, hc⟩

/-- C103 (credentials): the member `@context` of the proof, which a signer by the Recommendation writes, makes no difference
to the reader: the text with it is verified like the text without it. -/
theorem C103_text_vc {E : Env} (isDate : Str → Bool) (pub : E.EdPub) (purpose : ProofPurpose) (pre post a b : List (Bytes × Raw))
    (k n : Bytes) (x : Raw) (hk : Spells k "proof".toList) (hn : Spells n "@context".toList) (bs bs' : Bytes)
    (h : JsonText (.obj (pre ++ (k, .obj (a ++ b)) :: post)) bs)
    (h' : JsonText (.obj (pre ++ (k, .obj (a ++ (n, x) :: b)) :: post)) bs') :
    Alike ((Integrity.new (W3C.suite E isDate (VC E))).verifyProof pub bs purpose)
      ((Integrity.new (W3C.suite E isDate (VC E))).verifyProof pub bs' purpose) := by
  have hp : PaddedVC (.obj (pre ++ (k, .obj (a ++ b)) :: post)) (.obj (pre ++ (k, .obj (a ++ (n, x) :: b)) :: post)) :=
    .proof pre post hk (Adds.mk a b x hn (by decide))
  refine C59_alike _ bs bs' (VC.parse_alike ?_) pub purpose
  simp only [fromSlice, (Raw.parse_iff _ _).mpr h, (Raw.parse_iff _ _).mpr h', hp.dec 128]

/-- C103 (credentials): no signature is accepted both by the suite built into the library and by this one, whatever the
documents, but with an explicit conflict. -/
theorem C103_apart_vc {E : Env} (H : E.HashLaws) (L : E.JcsLaws) (isDate : Str → Bool) (pub : E.EdPub) (ctx : Option (List Str))
    (p q : Proof) (v w : VC E) (sig : Bytes) (bs : Bytes) (purpose : ProofPurpose)
    (h : ConformsW3C E isDate pub ctx p v.contexts (vcBytes (signedVC v ctx))) (ha : AcceptedVC pub bs purpose w)
    (hq : w.proof = some q) (hs : IsMultibase58 sig p.proofValue) (hs' : ∃ base, IsMultibase E base sig q.proofValue) :
    Conflict E pub sig (configBytes E ctx none p) (vcBytes (signedVC v ctx)) (optionBytes E (unvalued q))
      (vcBytes (unsignedVC w)) := by
  obtain ⟨hb, r, hr, hok⟩ := ha
  obtain ⟨w', q', a1, a2, _, _, _, _, ⟨base, s, hex, a3, a4, a5⟩, _⟩ := (C33_vc L pub bs purpose r).mp ⟨hr, hok⟩
  rw [hb] at a1; cases a1
  rw [hq] at a2; cases a2
  obtain ⟨s', x, b1, b2, b3⟩ := h.signed
  obtain ⟨base', hs'⟩ := hs'
  cases isMultibase_bytes (E := E) (.base58 hs) (.base58 b1)
  cases isMultibase_bytes hs' a3
  rcases same_or_conflict H b2 a4 b3 a5 with ⟨e1, _⟩ | hc
  · exact absurd e1.symm (C73_config L _ _ _)
  · exact hc

/-- C103 (presentations): `add_proof` with the suite, exactly: the signature is over the message of the Recommendation. -/
theorem C103_add_vp {E : Env} (L : E.JcsLaws) (isDate : Str → Bool) (kp : E.EdKP) (v : VP E) (opts : Proof) (out : VP E) :
    (Integrity.new (W3C.suite E isDate (VP E))).addProof kp v opts = .ok out ↔
      opts.typ = "DataIntegrityProof".toList ∧ opts.cryptosuite = some "eddsa-jcs-2022".toList ∧
      (∀ c, opts.created = some c → isDate c = true) ∧ opts.proofPurpose ≠ .unknown ∧ VPComplete v ∧
      ∃ text, IsMultibase58 (E.edSign kp (E.sha256 (configBytes E none none opts) ++ E.sha256 (vpBytes (unsignedVP v)))) text ∧
        out = ⟨v.contexts, v.types, v.verifiableCredential, some { opts with proofValue := text }, v.holder⟩ := by
  rw [w3c_add L, check_iff]
  constructor
  · rintro ⟨⟨h1, h2, h3⟩, h4, t, text, h5, h6, rfl⟩
    obtain ⟨h7, h8⟩ := (vp_toJcs_iff L _ t).mp h5
    refine ⟨h1, h2, h3, h4, h7, text, ?_, rfl⟩
    rw [h8] at h6
    exact h6
  · rintro ⟨h1, h2, h3, h4, h5, text, h6, rfl⟩
    obtain ⟨t, ht⟩ := (C25_serialise_iff (unsignedVP v)).2.1.mpr h5
    refine ⟨⟨h1, h2, h3⟩, h4, t, text, ht, ?_, rfl⟩
    rw [((vp_toJcs_iff L _ t).mp ht).2]
    exact h6

/-- C103 (presentations): what is signed through the suite, with whatever options and whatever proof it had before, the
Recommendation accepts, and so does `verify_proof` with the suite from every text that reads as it, returning what was
signed. -/
theorem C103_sent_vp {E : Env} (L : E.JcsLaws) (K : E.EdLaws) (isDate : Str → Bool) (kp : E.EdKP) (v : VP E) (opts : Proof)
    (out : VP E) (h : (Integrity.new (W3C.suite E isDate (VP E))).addProof kp v opts = .ok out) :
    ∃ p, out.proof = some p ∧ unvalued p = unvalued opts ∧ unsignedVP out = unsignedVP v ∧
      ConformsW3C E isDate (E.edPub kp) none p out.contexts (vpBytes (unsignedVP v)) ∧
      ∀ bs, VP.parseJsonBytes E bs = .ok out →
        (Integrity.new (W3C.suite E isDate (VP E))).verifyProof (E.edPub kp) bs opts.proofPurpose =
          .ok ⟨true, some (unsignedVP v)⟩ := by
  obtain ⟨h1, h2, h3, h4, h5, text, h6, rfl⟩ := (C103_add_vp L isDate kp v opts out).mp h
  refine ⟨_, rfl, rfl, rfl, ⟨h1, h2, h3, nofun, _, _, h6, hexEncode_spec _, K.verify_sign kp _⟩, fun bs hb => ?_⟩
  obtain ⟨t, ht⟩ := (C25_serialise_iff (unsignedVP v)).2.1.mpr h5
  refine w3c_own L K isDate kp (⟨v.contexts, v.types, v.verifiableCredential, some { opts with proofValue := text }, v.holder⟩ : VP E) { opts with proofValue := text } t bs hb rfl
    ((check_iff isDate { opts with proofValue := text }).mpr ⟨h1, h2, h3⟩) h4 ht ?_
  rw [((vp_toJcs_iff L _ t).mp ht).2]
  exact h6

/-- C103 (presentations): two accepted documents with one signature have the same options, the same contexts in the proof and are
the same up to number spelling, but for what the Recommendation leaves out; or there is an explicit conflict. -/
theorem C103_one_vp {E : Env} (H : E.HashLaws) (L : E.JcsLaws) (isDate : Str → Bool) (pub : E.EdPub) (ctx ctx' : Option (List Str))
    (p p' : Proof) (v v' : VP E) (sig : Bytes) (hv : VPComplete (signedVP v ctx)) (hv' : VPComplete (signedVP v' ctx'))
    (h : ConformsW3C E isDate pub ctx p v.contexts (vpBytes (signedVP v ctx)))
    (h' : ConformsW3C E isDate pub ctx' p' v'.contexts (vpBytes (signedVP v' ctx')))
    (hs : IsMultibase58 sig p.proofValue) (hs' : IsMultibase58 sig p'.proofValue) :
    (ctx = ctx' ∧ unvalued p = unvalued p' ∧ SameVP (signedVP v ctx) (signedVP v' ctx')) ∨
      Conflict E pub sig (configBytes E ctx none p) (vpBytes (signedVP v ctx)) (configBytes E ctx' none p')
        (vpBytes (signedVP v' ctx')) := by
  obtain ⟨s, x, a1, a2, a3⟩ := h.signed
  obtain ⟨s', x', b1, b2, b3⟩ := h'.signed
  cases isMultibase_bytes (E := E) (.base58 hs) (.base58 a1)
  cases isMultibase_bytes (E := E) (.base58 hs') (.base58 b1)
  rcases same_or_conflict H a2 b2 a3 b3 with ⟨e1, e2⟩ | hc
  · obtain ⟨f1, f2⟩ := config_inj L e1
    exact .inl ⟨f1, f2, vpBytes_same L hv hv' e2⟩
  · exact .inr hc

/-- C103 (presentations): a document signed as the Recommendation says, with its contexts in the proof, is accepted from every
text that reads as it, also with further contexts behind; returned is what was signed, or there is an explicit
conflict. -/
theorem C103_received_vp {E : Env} (H : E.HashLaws) (L : E.JcsLaws) (K : E.EdLaws) (isDate : Str → Bool) (kp : E.EdKP) (v w : VP E) (p : Proof)
    (hv : VPComplete v) (hp : v.proof = none) (ht : p.typ = "DataIntegrityProof".toList)
    (hc : p.cryptosuite = some "eddsa-jcs-2022".toList) (hd : ∀ c, p.created = some c → isDate c = true)
    (hu : p.proofPurpose ≠ .unknown)
    (hs : IsMultibase58 (E.edSign kp (E.sha256 (configBytes E (some v.contexts) none p) ++ E.sha256 (vpBytes v))) p.proofValue)
    (more : List Str) (bs : Bytes) (hb : VP.parseJsonBytes E bs = .ok w) (hw : w = ⟨v.contexts ++ more, v.types, v.verifiableCredential, some p, v.holder⟩) :
    ∃ r ctx, (Integrity.new (W3C.suite E isDate (VP E))).verifyProof (E.edPub kp) bs p.proofPurpose = .ok r ∧ r.verified = true ∧
      r.document = some (signedVP w ctx) ∧
      (ctx = some v.contexts ∧ signedVP w ctx = v ∨
        ∃ sig, Conflict E (E.edPub kp) sig (configBytes E ctx none p) (vpBytes (signedVP w ctx))
          (configBytes E (some v.contexts) none p) (vpBytes v)) := by
  subst hw
  have e : signedVP (E := E) ⟨v.contexts ++ more, v.types, v.verifiableCredential, some p, v.holder⟩ (some v.contexts) = v := by
    obtain ⟨_, _, _, pr, _⟩ := v
    simp only at hp
    subst hp; rfl
  have g : ConformsW3C E isDate (E.edPub kp) (some v.contexts) p (v.contexts ++ more) (vpBytes v) :=
    ⟨ht, hc, hd, fun c hc => ⟨more, by cases hc; rfl⟩, _, _, hs, hexEncode_spec _, K.verify_sign kp _⟩
  obtain ⟨r, h1, h2⟩ := (C103_accepts_vp L isDate (E.edPub kp) bs p.proofPurpose).mpr
    ⟨_, p, some v.contexts, hb, rfl, rfl, hu, e.symm ▸ hv, e.symm ▸ g⟩
  obtain ⟨w, q, ctx, a1, a2, a3, a4⟩ := C103_returns_vp L isDate (E.edPub kp) bs p.proofPurpose r h1 h2
  rw [hb] at a1; cases a1
  cases a2
  refine ⟨r, ctx, h1, h2, a3, ?_⟩
  obtain ⟨s, x, b1, b2, b3⟩ := a4.signed
  cases isMultibase_bytes (E := E) (.base58 hs) (.base58 b1)
  rcases same_or_conflict H b2 (hexEncode_spec _) b3 (K.verify_sign kp _) with ⟨e1, e2⟩ | hc
  · obtain ⟨f1, _⟩ := config_inj L e1
    exact .inl ⟨f1, f1 ▸ e⟩
  · exact .inr ⟨_, hc⟩

/-- C103 (presentations): the member `@context` of the proof, which a signer by the Recommendation writes, makes no difference
to the reader: the text with it is verified like the text without it. -/
theorem C103_text_vp {E : Env} (isDate : Str → Bool) (pub : E.EdPub) (purpose : ProofPurpose) (pre post a b : List (Bytes × Raw))
    (k n : Bytes) (x : Raw) (hk : Spells k "proof".toList) (hn : Spells n "@context".toList) (bs bs' : Bytes)
    (h : JsonText (.obj (pre ++ (k, .obj (a ++ b)) :: post)) bs)
    (h' : JsonText (.obj (pre ++ (k, .obj (a ++ (n, x) :: b)) :: post)) bs') :
    Alike ((Integrity.new (W3C.suite E isDate (VP E))).verifyProof pub bs purpose)
      ((Integrity.new (W3C.suite E isDate (VP E))).verifyProof pub bs' purpose) := by
  have hp : PaddedVP (.obj (pre ++ (k, .obj (a ++ b)) :: post)) (.obj (pre ++ (k, .obj (a ++ (n, x) :: b)) :: post)) :=
    .proof pre post hk (Adds.mk a b x hn (by decide))
  refine C59_alike _ bs bs' (VP.parse_alike ?_) pub purpose
  simp only [fromSlice, (Raw.parse_iff _ _).mpr h, (Raw.parse_iff _ _).mpr h', hp.dec 128]

/-- C103 (presentations): no signature is accepted both by the suite built into the library and by this one, whatever the
documents, but with an explicit conflict. -/
theorem C103_apart_vp {E : Env} (H : E.HashLaws) (L : E.JcsLaws) (isDate : Str → Bool) (pub : E.EdPub) (ctx : Option (List Str))
    (p q : Proof) (v w : VP E) (sig : Bytes) (bs : Bytes) (purpose : ProofPurpose)
    (h : ConformsW3C E isDate pub ctx p v.contexts (vpBytes (signedVP v ctx))) (ha : AcceptedVP pub bs purpose w)
    (hq : w.proof = some q) (hs : IsMultibase58 sig p.proofValue) (hs' : ∃ base, IsMultibase E base sig q.proofValue) :
    Conflict E pub sig (configBytes E ctx none p) (vpBytes (signedVP v ctx)) (optionBytes E (unvalued q))
      (vpBytes (unsignedVP w)) := by
  obtain ⟨hb, r, hr, hok⟩ := ha
  obtain ⟨w', q', a1, a2, _, _, _, _, ⟨base, s, hex, a3, a4, a5⟩, _⟩ := (C33_vp L pub bs purpose r).mp ⟨hr, hok⟩
  rw [hb] at a1; cases a1
  rw [hq] at a2; cases a2
  obtain ⟨s', x, b1, b2, b3⟩ := h.signed
  obtain ⟨base', hs'⟩ := hs'
  cases isMultibase_bytes (E := E) (.base58 hs) (.base58 b1)
  cases isMultibase_bytes hs' a3
  rcases same_or_conflict H b2 a4 b3 a5 with ⟨e1, _⟩ | hc
  · exact absurd e1.symm (C73_config L _ _ _)
  · exact hc

/-- C103: the full claim of C73, which fails of the suite built in (`C73_full_false`), holds with this suite. -/
theorem C103_full {E : Env} (L : E.JcsLaws) (K : E.EdLaws) (isDate : Str → Bool) :
    SignsByRecommendation E (Integrity.new (W3C.suite E isDate (VC E))).addProof ∧
      (SignsByRecommendation E (sign E (VC E)) ↔ C73_full E) := by
  refine ⟨fun kp v opts out p _ hn h hp => ?_, Iff.rfl⟩
  obtain ⟨q, h1, _, _, h4, _⟩ := C103_sent_vc L K isDate kp v opts out h
  rw [hp] at h1; cases h1
  have e : unsignedVC v = v := by
    obtain ⟨_, _, _, pr, _, _⟩ := v
    simp only at hn
    subst hn; rfl
  exact .inl (e ▸ h4.signed)

/-! ### Cases -/

/-- Every date will do. -/
def anyDate : Str → Bool := fun _ => true

/-- `C103_add_vc`, `C103_sent_vc`: a credential is signed through the suite, though it had a proof and the options a
stale proof value, sent as its JSON text and accepted. -/
example : ∃ (out : VC Toy.env) (bs : Bytes),
    (Integrity.new (W3C.suite Toy.env anyDate (VC Toy.env))).addProof (7 : UInt8)
      { toyVC with proof := some toyProof } { toyProof with proofValue := "stale".toList } = .ok out ∧
    VC.parseJsonBytes Toy.env bs = .ok out ∧
    (Integrity.new (W3C.suite Toy.env anyDate (VC Toy.env))).verifyProof (7 : UInt8) bs .assertionMethod = .ok ⟨true, some toyVC⟩ := by
  obtain ⟨out, h1, hc, hd⟩ : ∃ out : VC Toy.env, (Integrity.new (W3C.suite Toy.env anyDate (VC Toy.env))).addProof (7 : UInt8)
      { toyVC with proof := some toyProof } { toyProof with proofValue := "stale".toList } = .ok out ∧ VCComplete out ∧
      out.credentialSubject = toySubject :=
    ⟨_, (C103_add_vc Toy.jcsLaws anyDate (7 : UInt8) _ _ _).mpr ⟨toyProof_good.type, toyProof_good.suite, fun _ _ => rfl, by decide,
      (show VCComplete _ from toyVC_complete), _, multibaseEncode58_spec _, rfl⟩, (show VCComplete _ from toyVC_complete), rfl⟩
  obtain ⟨p, a1, a2, a3, a4, a5⟩ := C103_sent_vc Toy.jcsLaws Toy.edLaws anyDate _ _ _ _ h1
  obtain ⟨t, b1, b2⟩ := C26_json_roundtrip Toy.numLaws out hc (Toy.survives _)
    (by rw [hd]; simp [toySubject, Json.depth, Json.depthMembers])
  exact ⟨out, _, h1, b2, a5 _ b2⟩

/-- `C103_received_vc`, `C103_accepts_vc`, `C103_returns_vc`: a credential signed as the Recommendation says, with the
contexts in the proof, to which somebody added a context on the way. -/
example : ∃ (w : VC Toy.env) (p : Proof) (bs : Bytes) (r : VerificationResult (VC Toy.env)), VC.parseJsonBytes Toy.env bs = .ok w ∧
    w.contexts = toyVC.contexts ++ ["added".toList] ∧ w.proof = some p ∧
    IsMultibase58 (Toy.env.edSign (7 : UInt8) (Toy.env.sha256 (configBytes Toy.env (some toyVC.contexts) none p) ++
      Toy.env.sha256 (vcBytes toyVC))) p.proofValue ∧
    (Integrity.new (W3C.suite Toy.env anyDate (VC Toy.env))).verifyProof (7 : UInt8) bs .assertionMethod = .ok r ∧
    r.verified = true := by
  have hs := multibaseEncode58_spec (Toy.env.edSign (7 : UInt8) (Toy.env.sha256 (configBytes Toy.env (some toyVC.contexts) none toyProof) ++
      Toy.env.sha256 (vcBytes toyVC)))
  generalize multibaseEncode58 _ = text at hs
  obtain ⟨t, b1, b2⟩ := C26_json_roundtrip Toy.numLaws (⟨toyVC.contexts ++ ["added".toList], toyVC.types, toyVC.credentialSubject,
    some { toyProof with proofValue := text }, toyVC.id, toyVC.issuer⟩ : VC Toy.env) ⟨by simp, toyVC_complete.2.1, toyVC_complete.2.2⟩ (Toy.survives _)
    (by simp [toyVC, toySubject, Json.depth, Json.depthMembers])
  obtain ⟨r, ctx, c1, c2, _⟩ := C103_received_vc Toy.hashLaws Toy.jcsLaws Toy.edLaws anyDate (7 : UInt8) toyVC _ { toyProof with proofValue := text }
    toyVC_complete rfl toyProof_good.type toyProof_good.suite (fun _ _ => rfl) (show toyProof.proofPurpose ≠ .unknown by decide) hs ["added".toList] _ b2 rfl
  exact ⟨_, _, _, r, b2, rfl, rfl, hs, c1, c2⟩

/-- A sample presentation of `C103_add_vp`, `C103_sent_vp`. -/
example : ∃ (out : VP Toy.env) (bs : Bytes),
    (Integrity.new (W3C.suite Toy.env anyDate (VP Toy.env))).addProof (7 : UInt8) toyVP toyProof = .ok out ∧
    VP.parseJsonBytes Toy.env bs = .ok out ∧
    (Integrity.new (W3C.suite Toy.env anyDate (VP Toy.env))).verifyProof (7 : UInt8) bs .assertionMethod =
      .ok ⟨true, some (unsignedVP toyVP)⟩ := by
  obtain ⟨out, h1, hc, hd⟩ : ∃ out : VP Toy.env, (Integrity.new (W3C.suite Toy.env anyDate (VP Toy.env))).addProof (7 : UInt8)
      toyVP toyProof = .ok out ∧ VPComplete out ∧ out.verifiableCredential = toyVP.verifiableCredential :=
    ⟨_, (C103_add_vp Toy.jcsLaws anyDate (7 : UInt8) _ _ _).mpr ⟨toyProof_good.type, toyProof_good.suite,
      fun _ _ => rfl, by decide, (show VPComplete _ from toyVP_complete), _, multibaseEncode58_spec _, rfl⟩,
      (show VPComplete _ from toyVP_complete), rfl⟩
  obtain ⟨p, a1, a2, a3, a4, a5⟩ := C103_sent_vp Toy.jcsLaws Toy.edLaws anyDate _ _ _ _ h1
  obtain ⟨t, b1, b2⟩ := C27_json_roundtrip Toy.numLaws out hc (fun _ _ => Toy.survives _)
    (by rw [hd]; simp [toyVP, toyVC, toySubject, Json.depth, Json.depthMembers])
  exact ⟨out, _, h1, b2, a5 _ b2⟩

/-- `C103_received_vp`. -/
example : ∃ (p : Proof) (bs : Bytes) (r : VerificationResult (VP Toy.env)),
    (Integrity.new (W3C.suite Toy.env anyDate (VP Toy.env))).verifyProof (7 : UInt8) bs .assertionMethod = .ok r ∧
    r.verified = true ∧ VP.parseJsonBytes Toy.env bs = .ok ⟨toyVP.contexts ++ ["added".toList], toyVP.types,
      toyVP.verifiableCredential, some p, toyVP.holder⟩ := by
  have hs := multibaseEncode58_spec (Toy.env.edSign (7 : UInt8) (Toy.env.sha256 (configBytes Toy.env (some (unsignedVP toyVP).contexts) none toyProof) ++
      Toy.env.sha256 (vpBytes (unsignedVP toyVP))))
  generalize multibaseEncode58 _ = text at hs
  obtain ⟨t, b1, b2⟩ := C27_json_roundtrip Toy.numLaws (⟨toyVP.contexts ++ ["added".toList], toyVP.types, toyVP.verifiableCredential,
    some { toyProof with proofValue := text }, toyVP.holder⟩ : VP Toy.env) ⟨by simp, toyVP_complete.2.1, toyVP_complete.2.2⟩ (fun _ _ => Toy.survives _)
    (by simp [toyVP, toyVC, toySubject, Json.depth, Json.depthMembers])
  obtain ⟨r, ctx, c1, c2, _⟩ := C103_received_vp Toy.hashLaws Toy.jcsLaws Toy.edLaws anyDate (7 : UInt8) (unsignedVP toyVP) _ { toyProof with proofValue := text }
    (show VPComplete _ from toyVP_complete) rfl toyProof_good.type toyProof_good.suite (fun _ _ => rfl) (show toyProof.proofPurpose ≠ .unknown by decide) hs ["added".toList] _ b2 rfl
  exact ⟨_, _, r, c1, c2, b2⟩

/-- `C103_one_vc`, `C103_apart_vc` in a world with a broken signature scheme: one signature for two credentials by the
Recommendation, which the suite built in accepts as well. -/
example (sig : Bytes) (text : Str) (ht : IsMultibase58 sig text) (pub : Toy.weak.EdPub) (v : VC Toy.weak) (w : VP Toy.weak)
    (c : Option (List Str)) (hc : c = none ∨ c = some v.contexts) :
    ConformsW3C Toy.weak anyDate pub c { toyProof with proofValue := text } v.contexts (vcBytes (signedVC v c)) ∧
    ConformsW3C Toy.weak anyDate pub none { toyProof with proofValue := text } w.contexts (vpBytes (signedVP w none)) :=
  ⟨⟨toyProof_good.type, toyProof_good.suite, fun _ _ => rfl, by
      rcases hc with rfl | rfl
      · nofun
      · intro c h; cases h; exact ⟨[], by simp⟩, _, _, ht, hexEncode_spec _, rfl⟩,
    toyProof_good.type, toyProof_good.suite, fun _ _ => rfl, nofun, _, _, ht, hexEncode_spec _, rfl⟩

/-- `C103_text_vc`, `C103_text_vp`: such a pair of texts. -/
example : ∃ bs bs', JsonText (.obj [(encStr "proof".toList, .obj ([] ++ []))]) bs ∧
    JsonText (.obj [(encStr "proof".toList, .obj ([] ++ (encStr "@context".toList, .arr [.str (encStr "c".toList)]) :: []))]) bs' ∧
    Spells (encStr "proof".toList) "proof".toList ∧ Spells (encStr "@context".toList) "@context".toList := by
  refine ⟨_, _, (Raw.parse_iff _ _).mp (Raw.parse_render _ ?_), (Raw.parse_iff _ _).mp (Raw.parse_render _ ?_), ?_, ?_⟩
  · simp [Raw.Ok, Raw.OkMembers, isStrTok_encStr]
  · simp [Raw.Ok, Raw.OkMembers, Raw.OkList, isStrTok_encStr]
  · exact spells_of_dec (by decide +kernel) (by decide +kernel)
  · exact spells_of_dec (by decide +kernel) (by decide +kernel)

end Verif.Props
