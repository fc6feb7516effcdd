import Verif.Props.Proof

/-
C35 to C41, C44, C47: what an accepted proof says, what it does not say, and the class of every error.

No strength of SHA-256 or Ed25519 is assumed. Where the English claim relies on it, the theorem names the
concrete colliding pair, or the concrete second message the signature is accepted for.
-/

namespace Verif.Props
open Verif Spec

/-! ### C47 -/

/-- C47: the signed bytes are 64 long, the hash of the options first. Any document type. -/
theorem C47_layout {E : Env} (H : E.HashLaws) (L : E.JcsLaws) {T : Type} [Proofable T] (doc : T) (opts : Proof)
    (c : ProofConfig) (d : TransformedDoc) (hc : generateProofConfig E opts = .ok c)
    (hd : transformDocument doc opts = .ok d) :
    ∃ t, Proofable.toJcs doc = .ok t ∧ ∃ h, generateHash (d.hash E) (c.hash E) = .ok h ∧ h.bytes.length = 64 ∧
      h.bytes.take 32 = E.sha256 (optionBytes E opts) ∧ h.bytes.drop 32 = E.sha256 (utf8 t) := by
  have ht : ∃ t, Proofable.toJcs doc = .ok t ∧ d = ⟨t⟩ := by
    rw [transformDocument_eq] at hd
    split at hd
    · cases hd
    · split at hd
      · cases hd
      · split at hd
        · cases hd
        · rename_i t h; cases hd; exact ⟨t, h, rfl⟩
  obtain ⟨t, ht, rfl⟩ := ht
  have hc' : c = ⟨jcsText E opts.toTree⟩ := by
    rw [generateProofConfig_eq] at hc
    split at hc
    · cases hc
    · split at hc
      · cases hc
      · split at hc
        · cases hc
        · cases hc; rfl
  subst hc'
  refine ⟨t, ht, ⟨E.sha256 (utf8Encode (jcsText E opts.toTree)) ++ E.sha256 (utf8Encode t)⟩, rfl, ?_, ?_, ?_⟩
  · simp [H.sha256_len]
  · rw [optionBytes_eq L]
    simp [H.sha256_len]
  · rw [utf8_eq]
    simp [H.sha256_len]

/-- C47: equal signed bytes have equal halves. -/
theorem C47_separated {E : Env} (H : E.HashLaws) (o d o' d' : Bytes) (h : message E o d = message E o' d') :
    E.sha256 o = E.sha256 o' ∧ E.sha256 d = E.sha256 d' :=
  List.append_inj h (by rw [H.sha256_len, H.sha256_len])

/-- `C47_layout`: its hypotheses hold of the sample. -/
example : (generateProofConfig Toy.env toyProof).isOk = true ∧ (transformDocument toyVC toyProof).isOk = true :=
  ⟨rfl, rfl⟩

/-- `C47_separated`: a message for two pairs, where SHA-256 is broken. -/
example : message { Toy.env with sha256 := fun _ => List.replicate 32 0 } [1] [2] =
    message { Toy.env with sha256 := fun _ => List.replicate 32 0 } [1, 2] [] := rfl

/-- C47: for any two hashers, also ones that fail. The digest of the options comes first, whatever the lengths, and a
failure is a generation error quoting it, the document's failure before that of the options. -/
theorem C47_hashers (document options : Except ProofError Bytes) :
    (∀ h, generateHash document options = .ok h ↔
      ∃ d o, document = .ok d ∧ options = .ok o ∧ h.bytes = o ++ d) ∧
    (∀ e, generateHash document options = .error e ↔
      ∃ e', (document = .error e' ∨ (∃ d, document = .ok d) ∧ options = .error e') ∧
        e = .proofGenerationError e'.display) := by
  cases document with
  | error a => cases options <;> simp [generateHash, eq_comm]
  | ok d =>
    cases options with
    | error a => simp [generateHash, eq_comm]
    | ok o =>
      refine ⟨fun h => ?_, fun e => by simp [generateHash]⟩
      constructor
      · rintro h'
        cases h'
        exact ⟨d, o, rfl, rfl, rfl⟩
      · rintro ⟨_, _, h1, h2, h3⟩
        cases h1; cases h2
        exact congrArg Except.ok (congrArg HashedData.mk h3.symm)

/-- Both hashers fail: the document's failure is reported. -/
example : generateHash (.error (.invalidDomainError "a".toList)) (.error (.invalidChallengeError "b".toList)) =
    .error (.proofGenerationError "invalid domain error: a".toList) :=
  ((C47_hashers _ _).2 _).mpr ⟨.invalidDomainError "a".toList, .inl rfl, by decide +kernel⟩

/-- Digests of other lengths: the options' one is still first. -/
example : ∃ h, generateHash (.ok [1]) (.ok [2, 3]) = .ok h ∧ h.bytes = [2, 3, 1] :=
  ⟨⟨[2, 3, 1]⟩, ((C47_hashers _ _).1 _).mpr ⟨_, _, rfl, rfl, rfl⟩, rfl⟩

/-! ### C35 -/

/-- The signature bytes made with `kp` for options `o` and document `d` are accepted under `pub` for different
options `o'` or a different document `d'`. -/
inductive Broken (E : Env) (kp : E.EdKP) (pub : E.EdPub) (sig : Bytes) (o d o' d' : Bytes) : Prop where
  /-- SHA-256 collides on the two option texts -/
  | options (hne : o ≠ o') (h : E.sha256 o = E.sha256 o')
  /-- SHA-256 collides on the two document texts -/
  | document (hne : d ≠ d') (h : E.sha256 d = E.sha256 d')
  /-- the signature of one message is accepted for another -/
  | signature (hne : E.sha256 o ++ E.sha256 d ≠ E.sha256 o' ++ E.sha256 d')
      (h : sig = E.edSign kp (E.sha256 o ++ E.sha256 d)) (hex : Str) (hs : IsHex sig hex)
      (h' : E.edVerify pub (E.sha256 o' ++ E.sha256 d') hex = .ok true)

theorem same_or_broken {E : Env} (H : E.HashLaws) {kp : E.EdKP} {pub : E.EdPub} {sig o d o' d' : Bytes} {hex : Str}
    (h : sig = E.edSign kp (message E o d)) (hs : IsHex sig hex) (h' : E.edVerify pub (message E o' d') hex = .ok true) :
    (o = o' ∧ d = d') ∨ Broken E kp pub sig o d o' d' := by
  by_cases hm : message E o d = message E o' d'
  · obtain ⟨h1, h2⟩ := C47_separated H _ _ _ _ hm
    by_cases ho : o = o'
    · by_cases hd : d = d'
      · exact .inl ⟨ho, hd⟩
      · exact .inr (.document hd h2)
    · exact .inr (.options ho h1)
  · exact .inr (.signature hm h hex hs h')

theorem optionBytes_inj {E : Env} (L : E.JcsLaws) {p q : Proof} (h : optionBytes E p = optionBytes E q) : p = q := by
  have := (C29_proof L p q).mp
  rw [C49_proof_canonical L, C49_proof_canonical L] at this
  unfold optionBytes at h
  rw [utf8_eq, utf8_eq] at h
  exact this (congrArg _ (utf8Encode_injective h))

theorem vcBytes_same {E : Env} (L : E.JcsLaws) {v w : VC E} (hv : VCComplete v) (hw : VCComplete w)
    (h : vcBytes v = vcBytes w) : SameVC v w := by
  have := (C29_vc L v w hv hw).mp
  rw [C49_vc_canonical L v hv, C49_vc_canonical L w hw] at this
  unfold vcBytes at h
  rw [utf8_eq, utf8_eq] at h
  exact this (congrArg _ (utf8Encode_injective h))

theorem vpBytes_same {E : Env} (L : E.JcsLaws) {v w : VP E} (hv : VPComplete v) (hw : VPComplete w)
    (h : vpBytes v = vpBytes w) : SameVP v w := by
  have := (C29_vp L v w hv hw).mp
  rw [C49_vp_canonical L v hv, C49_vp_canonical L w hw] at this
  unfold vpBytes at h
  rw [utf8_eq, utf8_eq] at h
  exact this (congrArg _ (utf8Encode_injective h))

theorem isMultibase_bytes {E : Env} {b b' : MBase} {x y : Bytes} {t : Str} (h : IsMultibase E b x t)
    (h' : IsMultibase E b' y t) : x = y := by
  have := ((mbDecode_iff ..).mpr h).symm.trans ((mbDecode_iff ..).mpr h')
  simp only [Option.some.injEq, Prod.mk.injEq] at this
  exact this.2

/-- C35 (credentials): whatever is accepted with the signature of a signed credential is that credential with
those options, up to number spelling in the subject, or the cryptography is broken. -/
theorem C35_vc {E : Env} (H : E.HashLaws) (L : E.JcsLaws) (kp : E.EdKP) (v : VC E) (opts : Proof) (signed : VC E)
    (q0 : Proof) (sig : Bytes) (hs : sign E (VC E) kp v opts = .ok signed) (hq0 : signed.proof = some q0)
    (hsig : IsMultibase58 sig q0.proofValue)
    (pub : E.EdPub) (bs : Bytes) (purpose : ProofPurpose) (r : VerificationResult (VC E)) (w : VC E) (q : Proof)
    (base : MBase) (hr : verify E (VC E) pub bs purpose = .ok r) (hok : r.verified = true)
    (hw : VC.parseJsonBytes E bs = .ok w) (hq : w.proof = some q) (hqsig : IsMultibase E base sig q.proofValue) :
    (SameVC v (unsignedVC w) ∧ opts = unvalued q) ∨
    Broken E kp pub sig (optionBytes E opts) (vcBytes v) (optionBytes E (unvalued q)) (vcBytes (unsignedVC w)) := by
  obtain ⟨_, _, hv, text, ht, rfl⟩ := ((C32_vc L kp v opts).1 _).mp hs
  obtain ⟨w', q', h1, h2, _, _, _, h3, ⟨base', sig', hex, h4, h5, h6⟩, _⟩ := (C33_vc L pub bs purpose r).mp ⟨hr, hok⟩
  rw [hw] at h1; cases h1
  rw [hq] at h2; cases h2
  cases isMultibase_bytes hqsig h4
  cases hq0
  have hmade := isMultibase_bytes (E := E) (.base58 hsig) (.base58 ht)
  rcases same_or_broken H hmade h5 h6 with ⟨a, b⟩ | h
  · exact .inl ⟨vcBytes_same L hv h3 b, optionBytes_inj L a⟩
  · exact .inr h

/-- C35 (presentations). -/
theorem C35_vp {E : Env} (H : E.HashLaws) (L : E.JcsLaws) (kp : E.EdKP) (v : VP E) (opts : Proof) (signed : VP E)
    (q0 : Proof) (sig : Bytes) (hs : sign E (VP E) kp v opts = .ok signed) (hq0 : signed.proof = some q0)
    (hsig : IsMultibase58 sig q0.proofValue)
    (pub : E.EdPub) (bs : Bytes) (purpose : ProofPurpose) (r : VerificationResult (VP E)) (w : VP E) (q : Proof)
    (base : MBase) (hr : verify E (VP E) pub bs purpose = .ok r) (hok : r.verified = true)
    (hw : VP.parseJsonBytes E bs = .ok w) (hq : w.proof = some q) (hqsig : IsMultibase E base sig q.proofValue) :
    (SameVP v (unsignedVP w) ∧ opts = unvalued q) ∨
    Broken E kp pub sig (optionBytes E opts) (vpBytes v) (optionBytes E (unvalued q)) (vpBytes (unsignedVP w)) := by
  obtain ⟨_, _, hv, text, ht, rfl⟩ := ((C32_vp L kp v opts).1 _).mp hs
  obtain ⟨w', q', h1, h2, _, _, _, h3, ⟨base', sig', hex, h4, h5, h6⟩, _⟩ := (C33_vp L pub bs purpose r).mp ⟨hr, hok⟩
  rw [hw] at h1; cases h1
  rw [hq] at h2; cases h2
  cases isMultibase_bytes hqsig h4
  cases hq0
  have hmade := isMultibase_bytes (E := E) (.base58 hsig) (.base58 ht)
  rcases same_or_broken H hmade h5 h6 with ⟨a, b⟩ | h
  · exact .inl ⟨vpBytes_same L hv h3 b, optionBytes_inj L a⟩
  · exact .inr h

/-- The hypotheses of `C35_vc` are met by a signed credential and its own JSON text. -/
theorem toy_signed_vc : ∃ (signed : VC Toy.env) (q0 : Proof) (sig : Bytes) (bs : Bytes) (r : VerificationResult (VC Toy.env)),
    sign Toy.env (VC Toy.env) (7 : UInt8) toyVC toyProof = .ok signed ∧ signed.proof = some q0 ∧
    IsMultibase58 sig q0.proofValue ∧ verify Toy.env (VC Toy.env) (7 : UInt8) bs .assertionMethod = .ok r ∧
    r.verified = true ∧ VC.parseJsonBytes Toy.env bs = .ok signed ∧
    IsMultibase Toy.env .base58Btc sig q0.proofValue := by
  have hs := ((C32_vc Toy.jcsLaws (7 : UInt8) toyVC toyProof).1 _).mpr
    ⟨toyProof_good, by decide, toyVC_complete, _, multibaseEncode58_spec _, rfl⟩
  obtain ⟨s, h1, h2, _⟩ := C31_vc Toy.jcsLaws Toy.numLaws Toy.edLaws (7 : UInt8) toyVC toyProof toyVC_complete rfl
    toyProof_good (by decide) rfl
  rw [hs] at h1
  cases h1
  obtain ⟨t, _, h4⟩ := C26_json_roundtrip Toy.numLaws (E := Toy.env)
    { toyVC with proof := some { toyProof with proofValue := multibaseEncode58 (Toy.env.edSign (7 : UInt8)
      (message Toy.env (optionBytes Toy.env toyProof) (vcBytes toyVC))) } }
    (by exact toyVC_complete) (Toy.survives _) (by simp [toyVC, toySubject, Json.depth, Json.depthMembers])
  exact ⟨_, _, _, _, _, hs, rfl, multibaseEncode58_spec _, h2 _ h4, rfl, h4, .base58 (multibaseEncode58_spec _)⟩

/-- The hypotheses of `C35_vp` are met by a signed presentation and its own JSON text. -/
theorem toy_signed_vp : ∃ (signed : VP Toy.env) (q0 : Proof) (sig : Bytes) (bs : Bytes) (r : VerificationResult (VP Toy.env)),
    sign Toy.env (VP Toy.env) (7 : UInt8) toyVP toyProof = .ok signed ∧ signed.proof = some q0 ∧
    IsMultibase58 sig q0.proofValue ∧ verify Toy.env (VP Toy.env) (7 : UInt8) bs .assertionMethod = .ok r ∧
    r.verified = true ∧ VP.parseJsonBytes Toy.env bs = .ok signed ∧
    IsMultibase Toy.env .base58Btc sig q0.proofValue := by
  have hs := ((C32_vp Toy.jcsLaws (7 : UInt8) toyVP toyProof).1 _).mpr
    ⟨toyProof_good, by decide, toyVP_complete, _, multibaseEncode58_spec _, rfl⟩
  obtain ⟨s, h1, h2, _⟩ := C31_vp Toy.jcsLaws Toy.numLaws Toy.edLaws (7 : UInt8) toyVP toyProof toyVP_complete rfl
    toyProof_good (by decide) rfl
  rw [hs] at h1
  cases h1
  obtain ⟨t, _, h4⟩ := C27_json_roundtrip Toy.numLaws (E := Toy.env)
    { toyVP with proof := some { toyProof with proofValue := multibaseEncode58 (Toy.env.edSign (7 : UInt8)
      (message Toy.env (optionBytes Toy.env toyProof) (vpBytes toyVP))) } }
    (by exact toyVP_complete) (fun _ _ => Toy.survives _) (fun _ hc => by revert hc; simp [toyVP]; rintro rfl; simp [toyVC, toySubject, Json.depth, Json.depthMembers])
  exact ⟨_, _, _, _, _, hs, rfl, multibaseEncode58_spec _, h2 _ h4, rfl, h4, .base58 (multibaseEncode58_spec _)⟩

/-! ### C36 -/

/-- C36: no cryptosuite whatsoever makes `verify_proof` return a result for a proof with unknown or different
purpose. -/
theorem C36_verify {E : Env} {T : Type} [Proofable T] (suite : CryptoSuite E T) (pub : E.EdPub) (bs : Bytes)
    (purpose : ProofPurpose) (r : VerificationResult T)
    (h : (Integrity.new suite).verifyProof pub bs purpose = .ok r) :
    purpose ≠ .unknown ∧ ∃ doc p, (Proofable.parseJsonBytes bs : Except ProofError T) = .ok doc ∧
      Proofable.getProof doc = some p ∧ p.proofPurpose = purpose := by
  unfold Integrity.verifyProof at h
  split at h
  · cases h
  · rename_i doc hd
    split at h
    · cases h
    · rename_i p hp
      split at h
      · cases h
      · rename_i u hv
        split at h
        · cases h
        · rename_i hq
          have hq' := Decidable.not_not.mp hq
          exact ⟨hq' ▸ ((proof_validate_iff p).mp hv).2, doc, p, hd, hp, hq'⟩

/-- C36: no cryptosuite whatsoever makes `add_proof` attach a proof with unknown purpose. -/
theorem C36_sign {E : Env} {T : Type} [Proofable T] (suite : CryptoSuite E T) (kp : E.EdKP) (doc : T) (opts : Proof)
    (out : T) (h : (Integrity.new suite).addProof kp doc opts = .ok out) :
    ∃ p, suite.createProof kp doc opts = .ok p ∧ p.proofPurpose ≠ .unknown ∧ out = Proofable.setupProof doc p := by
  unfold Integrity.addProof at h
  split at h
  · cases h
  · rename_i p hp
    split at h
    · cases h
    · rename_i u hv
      cases h
      exact ⟨p, hp, ((proof_validate_iff p).mp hv).2, rfl⟩

/-- C36: signing with an unknown purpose fails, for both document types. -/
theorem C36_unknown_not_signed {E : Env} (L : E.JcsLaws) (kp : E.EdKP) (opts : Proof)
    (h : opts.proofPurpose = .unknown) :
    (∀ v : VC E, ∃ m, sign E (VC E) kp v opts = .error (.proofGenerationError m)) ∧
    (∀ v : VP E, ∃ m, sign E (VP E) kp v opts = .error (.proofGenerationError m)) := by
  refine ⟨fun v => ?_, fun v => ?_⟩
  · cases hs : sign E (VC E) kp v opts with
    | ok out => exact absurd h (((C32_vc L kp v opts).1 out).mp hs).2.1
    | error e => obtain ⟨m, rfl⟩ := (C32_vc L kp v opts).2 e hs; exact ⟨m, rfl⟩
  · cases hs : sign E (VP E) kp v opts with
    | ok out => exact absurd h (((C32_vp L kp v opts).1 out).mp hs).2.1
    | error e => obtain ⟨m, rfl⟩ := (C32_vp L kp v opts).2 e hs; exact ⟨m, rfl⟩

/-- `C36_unknown_not_signed`, `C36_sign`: the sample options without a purpose, and with one. -/
example : (∃ m, sign Toy.env (VC Toy.env) (7 : UInt8) toyVC { toyProof with proofPurpose := .unknown } = .error (.proofGenerationError m)) ∧
    ∃ out, (Integrity.new (EddsaJcs2022.suite Toy.env (VC Toy.env))).addProof (7 : UInt8) toyVC toyProof = .ok out := by
  obtain ⟨s, _, _, _, _, h, _⟩ := toy_signed_vc
  exact ⟨(C36_unknown_not_signed Toy.jcsLaws _ _ rfl).1 _, s, h⟩

/-- A result is returned for a real document (so `C36_verify` is not vacuous), and the same bytes are refused under
another expected purpose. -/
example : ∃ bs r, verify Toy.env (VC Toy.env) (7 : UInt8) bs .assertionMethod = .ok r ∧
    ∀ r', verify Toy.env (VC Toy.env) (7 : UInt8) bs .authentication ≠ .ok r' := by
  obtain ⟨s, h1, _, h3⟩ := C31_vc Toy.jcsLaws Toy.numLaws Toy.edLaws (7 : UInt8) toyVC toyProof toyVC_complete rfl
    toyProof_good (by decide) rfl
  obtain ⟨t, h4, h5⟩ := h3 (Toy.survives _) (by simp [toyVC, toySubject, Json.depth, Json.depthMembers])
  refine ⟨_, _, h5, ?_⟩
  intro r' h'
  obtain ⟨_, d, p, a1, a2, a3⟩ := C36_verify (EddsaJcs2022.suite Toy.env (VC Toy.env)) _ _ _ _ h5
  obtain ⟨_, d', p', b1, b2, b3⟩ := C36_verify (EddsaJcs2022.suite Toy.env (VC Toy.env)) _ _ _ _ h'
  rw [a1] at b1; cases b1
  rw [a2] at b2; cases b2
  rw [a3] at b3; cases b3

/-! ### C37 -/

/-- The full claim of C37 for credentials. -/
def C37_full (E : Env) : Prop :=
  ∀ (kp : E.EdKP) (v : VC E) (opts : Proof) (signed : VC E) (bs : Bytes),
    sign E (VC E) kp v opts = .ok signed → VC.parseJsonBytes E bs = .ok signed →
    ∃ r, verify E (VC E) (E.edPub kp) bs opts.proofPurpose = .ok r ∧ r.verified = true

/-- C37, the part that holds (credentials): options without proof value and a document without proof. Missing: every
other successfully signed document, see `C37_stale_vc` and `C37_full_false`. -/
theorem C37_vc_partial {E : Env} (L : E.JcsLaws) (N : E.NumLaws) (K : E.EdLaws) (kp : E.EdKP) (v : VC E) (opts : Proof)
    (signed : VC E) (bs : Bytes) (hproof : v.proof = none) (hval : opts.proofValue = [])
    (hs : sign E (VC E) kp v opts = .ok signed) (hb : VC.parseJsonBytes E bs = .ok signed) :
    verify E (VC E) (E.edPub kp) bs opts.proofPurpose = .ok ⟨true, some v⟩ := by
  obtain ⟨h1, h2, h3, _⟩ := ((C32_vc L kp v opts).1 _).mp hs
  obtain ⟨s, h4, h5, _⟩ := C31_vc L N K kp v opts h3 hproof h1 h2 hval
  rw [hs] at h4; cases h4
  exact h5 bs hb

/-- C37, the part that holds (presentations). Missing: as for credentials. -/
theorem C37_vp_partial {E : Env} (L : E.JcsLaws) (N : E.NumLaws) (K : E.EdLaws) (kp : E.EdKP) (v : VP E) (opts : Proof)
    (signed : VP E) (bs : Bytes) (hproof : v.proof = none) (hval : opts.proofValue = [])
    (hs : sign E (VP E) kp v opts = .ok signed) (hb : VP.parseJsonBytes E bs = .ok signed) :
    verify E (VP E) (E.edPub kp) bs opts.proofPurpose = .ok ⟨true, some v⟩ := by
  obtain ⟨h1, h2, h3, _⟩ := ((C32_vp L kp v opts).1 _).mp hs
  obtain ⟨s, h4, h5, _⟩ := C31_vp L N K kp v opts h3 hproof h1 h2 hval
  rw [hs] at h4; cases h4
  exact h5 bs hb

/-- C37: signing with a stale proof value in the options, or a document that already has a proof, gives a document
that is accepted only if the cryptography is broken. -/
theorem C37_stale_vc {E : Env} (H : E.HashLaws) (L : E.JcsLaws) (kp : E.EdKP) (v : VC E) (opts : Proof)
    (signed : VC E) (hbad : opts.proofValue ≠ [] ∨ v.proof ≠ none) (hs : sign E (VC E) kp v opts = .ok signed)
    (pub : E.EdPub) (bs : Bytes) (hb : VC.parseJsonBytes E bs = .ok signed) (purpose : ProofPurpose)
    (r : VerificationResult (VC E)) (hr : verify E (VC E) pub bs purpose = .ok r) (hok : r.verified = true) :
    Broken E kp pub (E.edSign kp (message E (optionBytes E opts) (vcBytes v))) (optionBytes E opts) (vcBytes v)
      (optionBytes E (unvalued opts)) (vcBytes (unsignedVC v)) := by
  obtain ⟨_, _, hv, text, ht, rfl⟩ := ((C32_vc L kp v opts).1 _).mp hs
  rcases C35_vc H L kp v opts _ _ _ hs rfl ht pub bs purpose r _ _ _ hr hok hb rfl (.base58 ht) with ⟨h1, h2⟩ | h
  · exfalso
    rcases hbad with h | h
    · exact h (by rw [h2]; rfl)
    · exact h h1.proof
  · exact h

/-- C37: the same for presentations. -/
theorem C37_stale_vp {E : Env} (H : E.HashLaws) (L : E.JcsLaws) (kp : E.EdKP) (v : VP E) (opts : Proof)
    (signed : VP E) (hbad : opts.proofValue ≠ [] ∨ v.proof ≠ none) (hs : sign E (VP E) kp v opts = .ok signed)
    (pub : E.EdPub) (bs : Bytes) (hb : VP.parseJsonBytes E bs = .ok signed) (purpose : ProofPurpose)
    (r : VerificationResult (VP E)) (hr : verify E (VP E) pub bs purpose = .ok r) (hok : r.verified = true) :
    Broken E kp pub (E.edSign kp (message E (optionBytes E opts) (vpBytes v))) (optionBytes E opts) (vpBytes v)
      (optionBytes E (unvalued opts)) (vpBytes (unsignedVP v)) := by
  obtain ⟨_, _, hv, text, ht, rfl⟩ := ((C32_vp L kp v opts).1 _).mp hs
  rcases C35_vp H L kp v opts _ _ _ hs rfl ht pub bs purpose r _ _ _ hr hok hb rfl (.base58 ht) with ⟨h1, h2⟩ | h
  · exfalso
    rcases hbad with h | h
    · exact h (by rw [h2]; rfl)
    · exact h h1.proof
  · exact h

/-- Options with a stale proof value. -/
def toyStale : Proof := { toyProof with proofValue := "zOLD".toList }

theorem toy_verify_true {p : UInt8} {m sig : Bytes} {hex : Str} (hs : IsHex sig hex)
    (h : Toy.env.edVerify p m hex = .ok true) : sig = p :: m := by
  have h' : (if hex.length % 2 = 1 then (.error "bad signature".toList : Except Str Bool)
    else .ok (hex == hexEncode (p :: m))) = .ok true := h
  split at h'
  · cases h'
  · injection h' with h'
    have := beq_iff_eq.mp h'
    rw [hs.unique] at this
    have h2 := congrArg hexDecode this
    rw [hexDecode_encode, hexDecode_encode] at h2
    exact Option.some.inj h2

/-- C37: the full claim fails in a world that meets every assumption. -/
theorem C37_full_false : ∃ E : Env, E.HashLaws ∧ E.JcsLaws ∧ E.NumLaws ∧ E.EdLaws ∧ ¬ C37_full E := by
  refine ⟨Toy.env, Toy.hashLaws, Toy.jcsLaws, Toy.numLaws, Toy.edLaws, ?_⟩
  intro hfull
  have hs := ((C32_vc Toy.jcsLaws (7 : UInt8) toyVC toyStale).1 _).mpr
    ⟨⟨toyProof_good.type, toyProof_good.suite, toyProof_good.created⟩, by decide, toyVC_complete, _, multibaseEncode58_spec _, rfl⟩
  obtain ⟨t, _, h4⟩ := C26_json_roundtrip Toy.numLaws (E := Toy.env)
    { toyVC with proof := some { toyStale with proofValue := multibaseEncode58 (Toy.env.edSign (7 : UInt8)
      (message Toy.env (optionBytes Toy.env toyStale) (vcBytes toyVC))) } }
    (by exact toyVC_complete) (Toy.survives _) (by simp [toyVC, toySubject, Json.depth, Json.depthMembers])
  obtain ⟨r, hr, hok⟩ := hfull _ _ _ _ _ hs h4
  have hb := C37_stale_vc Toy.hashLaws Toy.jcsLaws (7 : UInt8) toyVC toyStale _ (.inl (by decide)) hs _ _ h4 _ r hr hok
  cases hb with
  | options hne h =>
    have : Toy.env.sha256 (optionBytes Toy.env toyStale) ≠ Toy.env.sha256 (optionBytes Toy.env (unvalued toyStale)) := by
      decide +kernel
    exact this h
  | document hne h => exact hne rfl
  | signature hne h hex hx h' =>
    have := toy_verify_true hx h'
    have h2 : Toy.env.edSign (7 : UInt8) (message Toy.env (optionBytes Toy.env toyStale) (vcBytes toyVC)) =
      (7 : UInt8) :: (message Toy.env (optionBytes Toy.env toyStale) (vcBytes toyVC)) := rfl
    rw [h2] at this
    exact hne (List.cons.inj this).2

/-- The hypotheses of `C37_vc_partial` and `C37_vp_partial` are met. -/
example : (∃ signed bs, sign Toy.env (VC Toy.env) (7 : UInt8) toyVC toyProof = .ok signed ∧
      VC.parseJsonBytes Toy.env bs = .ok signed ∧ toyVC.proof = none ∧ toyProof.proofValue = []) ∧
    ∃ signed bs, sign Toy.env (VP Toy.env) (7 : UInt8) toyVP toyProof = .ok signed ∧
      VP.parseJsonBytes Toy.env bs = .ok signed ∧ toyVP.proof = none := by
  obtain ⟨s, _, _, bs, _, h1, _, _, _, _, h2, _⟩ := toy_signed_vc
  obtain ⟨s', _, _, bs', _, h1', _, _, _, _, h2', _⟩ := toy_signed_vp
  exact ⟨⟨s, bs, h1, h2, rfl, rfl⟩, s', bs', h1', h2', rfl⟩

/-- A small credential of the environment whose signatures mean nothing. -/
def weakVC : VC Toy.weak := ⟨["c".toList], ["t".toList], ⟨.bool true, trivial⟩, none, "i".toList, "j".toList⟩

/-- Where signatures mean nothing the hypotheses of `C37_stale_vc` and `C37_stale_vp` are met: documents signed with a
stale proof value are accepted. -/
example : (∃ signed bs r, sign Toy.weak (VC Toy.weak) (7 : UInt8) weakVC toyStale = .ok signed ∧
      VC.parseJsonBytes Toy.weak bs = .ok signed ∧ toyStale.proofValue ≠ [] ∧
      verify Toy.weak (VC Toy.weak) (7 : UInt8) bs .assertionMethod = .ok r ∧ r.verified = true) ∧
    ∃ signed bs r, sign Toy.weak (VP Toy.weak) (7 : UInt8) ⟨["c".toList], ["t".toList], [weakVC], none, none⟩ toyStale =
        .ok signed ∧ VP.parseJsonBytes Toy.weak bs = .ok signed ∧
      verify Toy.weak (VP Toy.weak) (7 : UInt8) bs .assertionMethod = .ok r ∧ r.verified = true := by
  have hg : GoodOptions Toy.weak toyStale := ⟨toyProof_good.1, toyProof_good.2, toyProof_good.3⟩
  have hc : VCComplete weakVC := ⟨by simp [weakVC], by simp [weakVC], by simp [weakVC]⟩
  have hc' : VPComplete (⟨["c".toList], ["t".toList], [weakVC], none, none⟩ : VP Toy.weak) :=
    ⟨by simp, by simp, by simp⟩
  have hs := ((C32_vc Toy.weak_jcsLaws (7 : UInt8) weakVC toyStale).1 _).mpr
    ⟨hg, by decide, hc, _, multibaseEncode58_spec _, rfl⟩
  have hs' := ((C32_vp Toy.weak_jcsLaws (7 : UInt8) ⟨["c".toList], ["t".toList], [weakVC], none, none⟩ toyStale).1 _).mpr
    ⟨hg, by decide, hc', _, multibaseEncode58_spec _, rfl⟩
  refine ⟨?_, ?_⟩
  · obtain ⟨t, _, h⟩ := C26_json_roundtrip Toy.weak_numLaws
      { weakVC with proof := some { toyStale with proofValue := multibaseEncode58 (Toy.weak.edSign (7 : UInt8)
        (message Toy.weak (optionBytes Toy.weak toyStale) (vcBytes weakVC))) } }
      (by exact hc) (by simp [weakVC, Survives, Json.nums]) (by simp [weakVC, Json.depth])
    have h5 := (C33_vc Toy.weak_jcsLaws (7 : UInt8) t.toBytes .assertionMethod ⟨true, some weakVC⟩).mpr
      ⟨_, _, h, rfl, ⟨hg.1, hg.2, hg.3⟩, rfl, by decide, hc,
        ⟨_, _, _, .base58 (multibaseEncode58_spec _), hexEncode_spec _, rfl⟩, rfl⟩
    exact ⟨_, _, _, hs, h, by decide, h5⟩
  · obtain ⟨t, _, h⟩ := C27_json_roundtrip Toy.weak_numLaws
      ⟨["c".toList], ["t".toList], [weakVC], some { toyStale with proofValue := multibaseEncode58 (Toy.weak.edSign (7 : UInt8)
        (message Toy.weak (optionBytes Toy.weak toyStale) (vpBytes ⟨["c".toList], ["t".toList], [weakVC], none, none⟩))) }, none⟩
      (by exact hc') (by simp [weakVC, Survives, Json.nums]) (by simp [weakVC, Json.depth])
    have h5 := (C33_vp Toy.weak_jcsLaws (7 : UInt8) t.toBytes .assertionMethod
      ⟨true, some ⟨["c".toList], ["t".toList], [weakVC], none, none⟩⟩).mpr
      ⟨_, _, h, rfl, ⟨hg.1, hg.2, hg.3⟩, rfl, by decide, hc',
        ⟨_, _, _, .base58 (multibaseEncode58_spec _), hexEncode_spec _, rfl⟩, rfl⟩
    exact ⟨_, _, _, hs', h, h5⟩

end Verif.Props
