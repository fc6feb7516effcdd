import Verif.Spec.Signed

/-
The suite for any document type. Helper lemmas for Verif/Props/Proof.lean.
-/

namespace Verif
open Spec

/-- `validate_type`, `validate_cryptosuite` and `validate_created` together. -/
theorem goodOptions_iff (E : Env) (p : Proof) :
    GoodOptions E p ↔ p.validateType = .ok () ∧ p.validateCryptosuite = .ok () ∧ p.validateCreated E = .ok () := by
  constructor
  · rintro ⟨h1, h2, c, h3, h4⟩
    refine ⟨?_, ?_, ?_⟩
    · unfold Proof.validateType; rw [h1]; rfl
    · unfold Proof.validateCryptosuite; rw [h2]; rfl
    · unfold Proof.validateCreated; rw [h3]; simp only [h4]
  · rintro ⟨h1, h2, h3⟩
    refine ⟨?_, ?_, ?_⟩
    · unfold Proof.validateType at h1
      split at h1
      · cases h1
      · rename_i h; exact Decidable.not_not.mp h
    · unfold Proof.validateCryptosuite at h2
      split at h2
      · rename_i s hs
        split at h2
        · cases h2
        · rename_i h; rw [hs, Decidable.not_not.mp h]; rfl
      · cases h2
    · unfold Proof.validateCreated at h3
      split at h3
      · rename_i c hc
        split at h3
        · rename_i u hu; exact ⟨c, hc, hu⟩
        · cases h3
      · cases h3

/-- Proof validation. -/
theorem proof_validate_iff (p : Proof) : p.validate = .ok () ↔ p.typ ≠ [] ∧ p.proofPurpose ≠ .unknown := by
  obtain ⟨_, t, u, _, _, _, _, _⟩ := p
  cases t <;> cases u <;> simp [Proof.validate]

theorem except_ok_or {ε : Type} (x : Except ε Unit) : x = .ok () ∨ ∃ e, x = .error e := by
  cases x with
  | ok u => exact .inl rfl
  | error e => exact .inr ⟨e, rfl⟩

theorem validateType_error {p : Proof} {e : ProofError} (h : p.validateType = .error e) :
    ∃ m, e = .proofGenerationError m := by
  unfold Proof.validateType at h
  split at h
  · cases h; exact ⟨_, rfl⟩
  · cases h

theorem validateCryptosuite_error {p : Proof} {e : ProofError} (h : p.validateCryptosuite = .error e) :
    ∃ m, e = .proofGenerationError m := by
  unfold Proof.validateCryptosuite at h
  split at h
  · split at h
    · cases h; exact ⟨_, rfl⟩
    · cases h
  · cases h; exact ⟨_, rfl⟩

theorem validateCreated_error {E : Env} {p : Proof} {e : ProofError} (h : p.validateCreated E = .error e) :
    ∃ m, e = .proofGenerationError m := by
  unfold Proof.validateCreated at h
  split at h
  · split at h
    · cases h
    · cases h; exact ⟨_, rfl⟩
  · cases h; exact ⟨_, rfl⟩

theorem optionBytes_eq {E : Env} (L : E.JcsLaws) (p : Proof) : utf8Encode (jcsText E p.toTree) = optionBytes E p := by
  unfold optionBytes
  rw [proof_tree, jcsText_eq L _ (proof_distinct p), utf8_eq]

section
variable {T : Type} [Proofable T]

/-- `generate_proof_config` on a `Proof`. -/
theorem generateProofConfig_eq (E : Env) (options : Proof) : generateProofConfig E options =
    match options.validateType with
    | .error e => .error e
    | .ok _ =>
      match options.validateCryptosuite with
      | .error e => .error e
      | .ok _ =>
        match options.validateCreated E with
        | .error e => .error e
        | .ok _ =>
          match options.toJcs E with
          | .error e => .error (.proofGenerationError e.display)
          | .ok t => .ok ⟨t⟩ := rfl

/-- `transform_document` with a `Proof`. -/
theorem transformDocument_eq (doc : T) (opts : Proof) : transformDocument doc opts =
    match opts.validateType with
    | .error e => .error e
    | .ok _ =>
      match opts.validateCryptosuite with
      | .error e => .error e
      | .ok _ =>
        match Proofable.toJcs doc with
        | .error e => .error (.proofGenerationError e.display)
        | .ok t => .ok ⟨t⟩ := rfl

/-- `create_proof`. -/
theorem createProof_cases {E : Env} (L : E.JcsLaws) (kp : E.EdKP) (doc : T) (opts : Proof) :
    (GoodOptions E opts → ∀ t, Proofable.toJcs doc = .ok t →
      EddsaJcs2022.createProof E kp doc opts = .ok { opts with
        proofValue := multibaseEncode58 (E.edSign kp (message E (optionBytes E opts) (utf8Encode t))) }) ∧
    (¬ GoodOptions E opts ∨ (∃ e, Proofable.toJcs doc = .error e) →
      ∃ m, EddsaJcs2022.createProof E kp doc opts = .error (.proofGenerationError m)) := by
  rw [goodOptions_iff]
  unfold EddsaJcs2022.createProof
  rw [generateProofConfig_eq, transformDocument_eq]
  rcases except_ok_or opts.validateType with h1 | ⟨e1, h1⟩
  swap
  · obtain ⟨m, rfl⟩ := validateType_error h1
    exact ⟨fun h => by rw [h1] at h; exact (nomatch h.1), fun _ => ⟨m, by simp only [h1]⟩⟩
  rcases except_ok_or opts.validateCryptosuite with h2 | ⟨e2, h2⟩
  swap
  · obtain ⟨m, rfl⟩ := validateCryptosuite_error h2
    exact ⟨fun h => by rw [h2] at h; exact (nomatch h.2.1), fun _ => ⟨m, by simp only [h1, h2]⟩⟩
  rcases except_ok_or (opts.validateCreated E) with h3 | ⟨e3, h3⟩
  swap
  · obtain ⟨m, rfl⟩ := validateCreated_error h3
    exact ⟨fun h => by rw [h3] at h; exact (nomatch h.2.2), fun _ => ⟨m, by simp only [h1, h2, h3]⟩⟩
  simp only [h1, h2, h3, and_self, not_true, false_or, true_implies, Proof.toJcs]
  cases ht : (Proofable.toJcs doc : Except DIDError Str) with
  | error e => exact ⟨fun t h => (nomatch h), fun _ => ⟨_, rfl⟩⟩
  | ok t =>
    refine ⟨?_, ?_⟩
    · intro t' h
      cases h
      rw [← optionBytes_eq L]
      rfl
    · rintro ⟨e, h⟩; exact (nomatch h)

/-- `add_proof` succeeds. -/
theorem addProof_iff {E : Env} (L : E.JcsLaws) (kp : E.EdKP) (doc : T) (opts : Proof) (out : T) :
    (DataIntegrityEddsaJcs2022.build E T).addProof kp doc opts = .ok out ↔
      GoodOptions E opts ∧ opts.proofPurpose ≠ .unknown ∧ ∃ t, Proofable.toJcs doc = .ok t ∧
        out = Proofable.setupProof doc { opts with
          proofValue := multibaseEncode58 (E.edSign kp (message E (optionBytes E opts) (utf8Encode t))) } := by
  have e : (DataIntegrityEddsaJcs2022.build E T).addProof kp doc opts =
      match EddsaJcs2022.createProof E kp doc opts with
      | .error e => .error e
      | .ok proof =>
        match proof.validate with
        | .error e => .error (.proofGenerationError e.display)
        | .ok _ => .ok (Proofable.setupProof doc proof) := rfl
  rw [e]
  obtain ⟨c1, c2⟩ := createProof_cases L kp doc opts
  by_cases hg : GoodOptions E opts
  swap
  · obtain ⟨m, hm⟩ := c2 (.inl hg)
    rw [hm]
    exact ⟨fun h => (nomatch h), fun h => absurd h.1 hg⟩
  cases ht : (Proofable.toJcs doc : Except DIDError Str) with
  | error e =>
    obtain ⟨m, hm⟩ := c2 (.inr ⟨e, ht⟩)
    rw [hm]
    exact ⟨fun h => (nomatch h), fun ⟨_, _, t, h, _⟩ => (nomatch h)⟩
  | ok t =>
    rw [c1 hg t ht]
    simp only
    rcases except_ok_or (Proof.validate { opts with
        proofValue := multibaseEncode58 (E.edSign kp (message E (optionBytes E opts) (utf8Encode t))) }) with
      hv | ⟨ev, hv⟩
    · rw [hv]
      have := (proof_validate_iff _).mp hv
      constructor
      · intro h; cases h; exact ⟨hg, this.2, t, rfl, rfl⟩
      · rintro ⟨_, _, t', h1, h2⟩; cases h1; rw [h2]
    · rw [hv]
      constructor
      · intro h; cases h
      · rintro ⟨_, hp, _⟩
        exfalso
        have := (proof_validate_iff { opts with
          proofValue := multibaseEncode58 (E.edSign kp (message E (optionBytes E opts) (utf8Encode t))) }).mpr
            ⟨by show opts.typ ≠ []; rw [hg.type]; decide, hp⟩
        rw [hv] at this; cases this

/-- Every error of `add_proof` is a `ProofGenerationError`. -/
theorem addProof_error {E : Env} (L : E.JcsLaws) (kp : E.EdKP) (doc : T) (opts : Proof) (e : ProofError)
    (h : (DataIntegrityEddsaJcs2022.build E T).addProof kp doc opts = .error e) : ∃ m, e = .proofGenerationError m := by
  have e' : (DataIntegrityEddsaJcs2022.build E T).addProof kp doc opts =
      match EddsaJcs2022.createProof E kp doc opts with
      | .error e => .error e
      | .ok proof =>
        match proof.validate with
        | .error e => .error (.proofGenerationError e.display)
        | .ok _ => .ok (Proofable.setupProof doc proof) := rfl
  rw [e'] at h
  obtain ⟨c1, c2⟩ := createProof_cases L kp doc opts
  have key : (∃ m, EddsaJcs2022.createProof E kp doc opts = .error (.proofGenerationError m)) ∨
      ∃ p, EddsaJcs2022.createProof E kp doc opts = .ok p := by
    by_cases hg : GoodOptions E opts
    · cases ht : (Proofable.toJcs doc : Except DIDError Str) with
      | error e => exact .inl (c2 (.inr ⟨e, ht⟩))
      | ok t => exact .inr ⟨_, c1 hg t ht⟩
    · exact .inl (c2 (.inl hg))
  rcases key with ⟨m, hm⟩ | ⟨p, hp⟩
  · rw [hm] at h; cases h; exact ⟨m, rfl⟩
  · rw [hp] at h
    simp only at h
    split at h
    · cases h; exact ⟨_, rfl⟩
    · cases h

/-- The suite's `verify_proof` on a document with proof `p` whose remainder has canonical text. -/
theorem suiteVerify_cases {E : Env} (L : E.JcsLaws) (pub : E.EdPub) (doc : T) (p : Proof)
    (hp : Proofable.getProof doc = some p) :
    (E.mbDecode p.proofValue = none →
      ∃ m, EddsaJcs2022.verifyProof E pub doc = .error (.proofVerificationError m)) ∧
    (∀ base sig, E.mbDecode p.proofValue = some (base, sig) →
      (¬ GoodOptions E p ∨ (∃ e, Proofable.toJcs (Proofable.removeProof doc) = .error e) →
        ∃ m, EddsaJcs2022.verifyProof E pub doc = .error (.proofGenerationError m)) ∧
      (GoodOptions E p → ∀ t, Proofable.toJcs (Proofable.removeProof doc) = .ok t →
        EddsaJcs2022.verifyProof E pub doc =
          match E.edVerify pub (message E (optionBytes E (unvalued p)) (utf8Encode t)) (hexEncode sig) with
          | .error m => .error (.proofVerificationError m)
          | .ok b => .ok (VerificationResult.result b (Proofable.removeProof doc)))) := by
  have e : EddsaJcs2022.verifyProof E pub doc =
      match E.mbDecode p.proofValue with
      | none => .error (.proofVerificationError (E.msg (.multibase p.proofValue)))
      | some (_, proofBytes) =>
        match transformDocument (Proofable.removeProof doc) p.removeProofValue with
        | .error e => .error e
        | .ok transformedData =>
          match generateProofConfig E p.removeProofValue with
          | .error e => .error e
          | .ok proofConfig =>
            match generateHash (transformedData.hash E) (proofConfig.hash E) with
            | .error e => .error e
            | .ok hashedData =>
              match verifySignature E pub hashedData ⟨proofBytes⟩ with
              | .error e => .error e
              | .ok isVerified => .ok (VerificationResult.result isVerified (Proofable.removeProof doc)) := by
    unfold EddsaJcs2022.verifyProof
    simp only [hp]
    rfl
  refine ⟨?_, ?_⟩
  · intro h; rw [e, h]; exact ⟨_, rfl⟩
  · intro base sig h
    rw [e, h]
    simp only
    have g1 : p.removeProofValue.validateType = p.validateType := rfl
    have g2 : p.removeProofValue.validateCryptosuite = p.validateCryptosuite := rfl
    have g3 : p.removeProofValue.validateCreated E = p.validateCreated E := rfl
    rw [generateProofConfig_eq, transformDocument_eq, g1, g2, g3, goodOptions_iff]
    rcases except_ok_or p.validateType with h1 | ⟨e1, h1⟩
    swap
    · obtain ⟨m, rfl⟩ := validateType_error h1
      exact ⟨fun _ => ⟨m, by simp only [h1]⟩, fun h => by rw [h1] at h; exact (nomatch h.1)⟩
    rcases except_ok_or p.validateCryptosuite with h2 | ⟨e2, h2⟩
    swap
    · obtain ⟨m, rfl⟩ := validateCryptosuite_error h2
      exact ⟨fun _ => ⟨m, by simp only [h1, h2]⟩, fun h => by rw [h2] at h; exact (nomatch h.2.1)⟩
    simp only [h1, h2, true_and]
    cases ht : (Proofable.toJcs (Proofable.removeProof doc) : Except DIDError Str) with
    | error e => exact ⟨fun _ => ⟨_, rfl⟩, fun _ t h => (nomatch h)⟩
    | ok t =>
      rcases except_ok_or (p.validateCreated E) with h3 | ⟨e3, h3⟩
      swap
      · obtain ⟨m, rfl⟩ := validateCreated_error h3
        exact ⟨fun _ => ⟨m, by simp only [h3]⟩, fun h => by rw [h3] at h; exact (nomatch h)⟩
      simp only [h3, not_true, false_or, true_implies]
      refine ⟨?_, ?_⟩
      · rintro ⟨e, h⟩; exact (nomatch h)
      · intro t' h
        cases h
        rw [← optionBytes_eq L]
        have hu : unvalued p = p.removeProofValue := rfl
        rw [hu]
        unfold message verifySignature ProofByte.toHex
        simp only [Proof.toJcs, TransformedDoc.hash, ProofConfig.hash, generateHash]
        cases E.edVerify pub (E.sha256 (utf8Encode (jcsText E p.removeProofValue.toTree)) ++ E.sha256 (utf8Encode t))
          (hexEncode sig) <;> rfl

/-- The three ways `verify_proof` can end, for every input. -/
theorem verify_cases {E : Env} (L : E.JcsLaws) (pub : E.EdPub) (bs : Bytes) (purpose : ProofPurpose) :
    (∀ e, (Proofable.parseJsonBytes bs : Except ProofError T) = .error e →
      (DataIntegrityEddsaJcs2022.build E T).verifyProof pub bs purpose = .error e) ∧
    ∀ doc, (Proofable.parseJsonBytes bs : Except ProofError T) = .ok doc →
      (Proofable.getProof doc = none →
        ∃ m, (DataIntegrityEddsaJcs2022.build E T).verifyProof pub bs purpose = .error (.proofVerificationError m)) ∧
      ∀ p, Proofable.getProof doc = some p →
        (p.typ = [] ∨ p.proofPurpose = .unknown ∨ p.proofPurpose ≠ purpose ∨ E.mbDecode p.proofValue = none →
          ∃ m, (DataIntegrityEddsaJcs2022.build E T).verifyProof pub bs purpose =
            .error (.proofVerificationError m)) ∧
        ∀ base sig, p.typ ≠ [] → p.proofPurpose ≠ .unknown → p.proofPurpose = purpose →
          E.mbDecode p.proofValue = some (base, sig) →
          (¬ GoodOptions E p ∨ (∃ e, Proofable.toJcs (Proofable.removeProof doc) = .error e) →
            ∃ m, (DataIntegrityEddsaJcs2022.build E T).verifyProof pub bs purpose =
              .error (.proofGenerationError m)) ∧
          (GoodOptions E p → ∀ t, Proofable.toJcs (Proofable.removeProof doc) = .ok t →
            (DataIntegrityEddsaJcs2022.build E T).verifyProof pub bs purpose =
              match E.edVerify pub (message E (optionBytes E (unvalued p)) (utf8Encode t)) (hexEncode sig) with
              | .error m => .error (.proofVerificationError m)
              | .ok b => .ok (VerificationResult.result b (Proofable.removeProof doc))) := by
  have e : (DataIntegrityEddsaJcs2022.build E T).verifyProof pub bs purpose =
      match (Proofable.parseJsonBytes bs : Except ProofError T) with
      | .error e => .error e
      | .ok securedDoc =>
        match Proofable.getProof securedDoc with
        | none => .error (.proofVerificationError "missing document proof".toList)
        | some proofDoc =>
          match proofDoc.validate with
          | .error e => .error (.proofVerificationError e.display)
          | .ok _ =>
            if proofDoc.proofPurpose ≠ purpose then
              .error (.proofVerificationError "mismatch proof purpose".toList)
            else EddsaJcs2022.verifyProof E pub securedDoc := rfl
  rw [e]
  refine ⟨?_, ?_⟩
  · intro er h; rw [h]
  · intro doc h
    rw [h]
    simp only
    refine ⟨?_, ?_⟩
    · intro hp; rw [hp]; exact ⟨_, rfl⟩
    · intro p hp
      obtain ⟨s1, s2⟩ := suiteVerify_cases L pub doc p hp
      rw [hp]
      simp only
      rcases except_ok_or p.validate with hv | ⟨er, hv⟩
      · have hv' := (proof_validate_iff p).mp hv
        simp only [hv]
        by_cases hq : p.proofPurpose = purpose
        · rw [if_neg (by simpa using hq)]
          refine ⟨?_, ?_⟩
          · rintro (h | h | h | h)
            · exact absurd h hv'.1
            · exact absurd h hv'.2
            · exact absurd hq h
            · exact s1 h
          · intro base sig _ _ _ hm
            exact s2 base sig hm
        · rw [if_pos hq]
          exact ⟨fun _ => ⟨_, rfl⟩, fun _ _ _ _ h => absurd h hq⟩
      · simp only [hv]
        refine ⟨fun _ => ⟨_, rfl⟩, ?_⟩
        intro _ _ h1 h2
        have := (proof_validate_iff p).mpr ⟨h1, h2⟩
        rw [hv] at this; cases this

/-- `verify_proof` returns a result. -/
theorem verify_ok_iff {E : Env} (L : E.JcsLaws) (pub : E.EdPub) (bs : Bytes) (purpose : ProofPurpose)
    (r : VerificationResult T) :
    (DataIntegrityEddsaJcs2022.build E T).verifyProof pub bs purpose = .ok r ↔
      ∃ doc p base sig t b, (Proofable.parseJsonBytes bs : Except ProofError T) = .ok doc ∧
        Proofable.getProof doc = some p ∧ GoodOptions E p ∧ p.proofPurpose = purpose ∧ purpose ≠ .unknown ∧
        IsMultibase E base sig p.proofValue ∧ Proofable.toJcs (Proofable.removeProof doc) = .ok t ∧
        E.edVerify pub (message E (optionBytes E (unvalued p)) (utf8Encode t)) (hexEncode sig) = .ok b ∧
        r = VerificationResult.result b (Proofable.removeProof doc) := by
  obtain ⟨c1, c2⟩ := verify_cases (T := T) L pub bs purpose
  constructor
  · intro h
    cases hd : (Proofable.parseJsonBytes bs : Except ProofError T) with
    | error e => rw [c1 e hd] at h; cases h
    | ok doc =>
      obtain ⟨c3, c4⟩ := c2 doc hd
      cases hp : Proofable.getProof doc with
      | none => obtain ⟨m, hm⟩ := c3 hp; rw [hm] at h; cases h
      | some p =>
        obtain ⟨c5, c6⟩ := c4 p hp
        by_cases hb : p.typ = [] ∨ p.proofPurpose = .unknown ∨ p.proofPurpose ≠ purpose ∨
            E.mbDecode p.proofValue = none
        · obtain ⟨m, hm⟩ := c5 hb; rw [hm] at h; cases h
        · simp only [not_or, ne_eq, Decidable.not_not] at hb
          obtain ⟨b1, b2, b3, b4⟩ := hb
          obtain ⟨⟨base, sig⟩, hm⟩ := Option.ne_none_iff_exists'.mp b4
          obtain ⟨c7, c8⟩ := c6 base sig b1 b2 b3 hm
          by_cases hg : GoodOptions E p
          · cases ht : (Proofable.toJcs (Proofable.removeProof doc) : Except DIDError Str) with
            | error e => obtain ⟨m, hm⟩ := c7 (.inr ⟨e, ht⟩); rw [hm] at h; cases h
            | ok t =>
              have h8 := c8 hg t ht
              rw [h8] at h
              split at h
              · cases h
              · rename_i b hb
                cases h
                exact ⟨doc, p, base, sig, t, b, rfl, hp, hg, b3, b3 ▸ b2, (mbDecode_iff ..).mp hm, ht, hb, rfl⟩
          · obtain ⟨m, hm⟩ := c7 (.inl hg); rw [hm] at h; cases h
  · rintro ⟨doc, p, base, sig, t, b, h1, h2, h3, h4, h5, h6, h7, h8, rfl⟩
    have := (((c2 doc h1).2 p h2).2 base sig (by rw [h3.type]; decide) (h4 ▸ h5) h4 ((mbDecode_iff ..).mpr h6)).2 h3 t h7
    rw [this, h8]

/-- `verify_proof` returns an error: the class. -/
theorem verify_error_iff {E : Env} (L : E.JcsLaws)
    (hparse : ∀ bs e, (Proofable.parseJsonBytes bs : Except ProofError T) = .error e → ∃ m, e = .proofGenerationError m)
    (pub : E.EdPub) (bs : Bytes) (purpose : ProofPurpose) :
    (∀ e, (DataIntegrityEddsaJcs2022.build E T).verifyProof pub bs purpose = .error e →
      (∃ m, e = .proofGenerationError m) ∨ ∃ m, e = .proofVerificationError m) ∧
    ((∃ m, (DataIntegrityEddsaJcs2022.build E T).verifyProof pub bs purpose = .error (.proofGenerationError m)) ↔
      (∀ doc, (Proofable.parseJsonBytes bs : Except ProofError T) ≠ .ok doc) ∨
      ∃ doc p base sig, (Proofable.parseJsonBytes bs : Except ProofError T) = .ok doc ∧
        Proofable.getProof doc = some p ∧ p.typ ≠ [] ∧ p.proofPurpose = purpose ∧ purpose ≠ .unknown ∧
        IsMultibase E base sig p.proofValue ∧
        (¬ GoodOptions E p ∨ ∀ t, Proofable.toJcs (Proofable.removeProof doc) ≠ .ok t)) ∧
    ((∃ m, (DataIntegrityEddsaJcs2022.build E T).verifyProof pub bs purpose = .error (.proofVerificationError m)) ↔
      ∃ doc, (Proofable.parseJsonBytes bs : Except ProofError T) = .ok doc ∧
        (Proofable.getProof doc = none ∨ ∃ p, Proofable.getProof doc = some p ∧
          (p.typ = [] ∨ p.proofPurpose = .unknown ∨ p.proofPurpose ≠ purpose ∨
            (∀ base sig, ¬ IsMultibase E base sig p.proofValue) ∨
            (GoodOptions E p ∧ ∃ base sig t m, IsMultibase E base sig p.proofValue ∧
              Proofable.toJcs (Proofable.removeProof doc) = .ok t ∧
              E.edVerify pub (message E (optionBytes E (unvalued p)) (utf8Encode t)) (hexEncode sig) = .error m)))) := by
  obtain ⟨c1, c2⟩ := verify_cases (T := T) L pub bs purpose
  cases hd : (Proofable.parseJsonBytes bs : Except ProofError T) with
  | error e =>
    obtain ⟨m, rfl⟩ := hparse bs e hd
    rw [c1 _ hd]
    refine ⟨?_, ?_, ?_⟩
    · intro e h; cases h; exact .inl ⟨_, rfl⟩
    · exact ⟨fun _ => .inl (fun _ h => (nomatch h)), fun _ => ⟨_, rfl⟩⟩
    · exact ⟨fun ⟨m, h⟩ => (nomatch h), fun ⟨doc, h, _⟩ => (nomatch h)⟩
  | ok doc =>
    obtain ⟨c3, c4⟩ := c2 doc hd
    cases hp : Proofable.getProof doc with
    | none =>
      obtain ⟨m, hm⟩ := c3 hp
      rw [hm]
      refine ⟨?_, ?_, ?_⟩
      · intro e h; cases h; exact .inr ⟨_, rfl⟩
      · refine ⟨fun ⟨m, h⟩ => (nomatch h), ?_⟩
        rintro (h | ⟨d, p, _, _, h, h', _⟩)
        · exact absurd rfl (h doc)
        · cases h; rw [hp] at h'; cases h'
      · exact ⟨fun _ => ⟨doc, rfl, .inl hp⟩, fun _ => ⟨_, rfl⟩⟩
    | some p =>
      obtain ⟨c5, c6⟩ := c4 p hp
      by_cases hb : p.typ = [] ∨ p.proofPurpose = .unknown ∨ p.proofPurpose ≠ purpose ∨
          E.mbDecode p.proofValue = none
      · obtain ⟨m, hm⟩ := c5 hb
        rw [hm]
        refine ⟨?_, ?_, ?_⟩
        · intro e h; cases h; exact .inr ⟨_, rfl⟩
        · refine ⟨fun ⟨m, h⟩ => (nomatch h), ?_⟩
          rintro (h | ⟨d, q, base, sig, h, h', a1, a2, a3, a4, _⟩)
          · exact absurd rfl (h doc)
          · cases h
            rw [hp] at h'; cases h'
            exfalso
            rcases hb with h | h | h | h
            · exact a1 h
            · exact a3 (a2 ▸ h)
            · exact h a2
            · exact (mbDecode_none E _).mp h _ _ a4
        · refine ⟨fun _ => ⟨doc, rfl, .inr ⟨p, hp, ?_⟩⟩, fun _ => ⟨_, rfl⟩⟩
          rcases hb with h | h | h | h
          · exact .inl h
          · exact .inr (.inl h)
          · exact .inr (.inr (.inl h))
          · exact .inr (.inr (.inr (.inl ((mbDecode_none E _).mp h))))
      · simp only [not_or, ne_eq, Decidable.not_not] at hb
        obtain ⟨b1, b2, b3, b4⟩ := hb
        obtain ⟨⟨base, sig⟩, hm⟩ := Option.ne_none_iff_exists'.mp b4
        have hm' := (mbDecode_iff ..).mp hm
        obtain ⟨c7, c8⟩ := c6 base sig b1 b2 b3 hm
        by_cases hbad : ¬ GoodOptions E p ∨ ∀ t, (Proofable.toJcs (Proofable.removeProof doc)) ≠ .ok t
        · have : ¬ GoodOptions E p ∨ ∃ e, (Proofable.toJcs (Proofable.removeProof doc)) = .error e := by
            rcases hbad with h | h
            · exact .inl h
            · cases ht : (Proofable.toJcs (Proofable.removeProof doc) : Except DIDError Str) with
              | error e => exact .inr ⟨e, rfl⟩
              | ok t => exact absurd ht (h t)
          obtain ⟨m, hm2⟩ := c7 this
          rw [hm2]
          refine ⟨?_, ?_, ?_⟩
          · intro e h; cases h; exact .inl ⟨_, rfl⟩
          · exact ⟨fun _ => .inr ⟨doc, p, base, sig, rfl, hp, b1, b3, b3 ▸ b2, hm', hbad⟩, fun _ => ⟨_, rfl⟩⟩
          · refine ⟨fun ⟨m, h⟩ => (nomatch h), ?_⟩
            rintro ⟨d, h, h'⟩
            cases h
            exfalso
            rcases h' with h' | ⟨q, h', h2⟩
            · rw [hp] at h'; cases h'
            · rw [hp] at h'; cases h'
              rcases h2 with h | h | h | h | ⟨hg, _, _, t, _, _, ht, _⟩
              · exact b1 h
              · exact b2 h
              · exact h b3
              · exact h _ _ hm'
              · rcases hbad with h | h
                · exact h hg
                · exact h t ht
        · simp only [not_or, Classical.not_not, not_forall, ne_eq] at hbad
          obtain ⟨hg, t, ht⟩ := hbad
          have h8 := c8 hg t ht
          rw [h8]
          cases hv : E.edVerify pub (message E (optionBytes E (unvalued p)) (utf8Encode t)) (hexEncode sig) with
          | error m =>
            refine ⟨?_, ?_, ?_⟩
            · intro e h; cases h; exact .inr ⟨_, rfl⟩
            · refine ⟨fun ⟨m, h⟩ => (nomatch h), ?_⟩
              rintro (h | ⟨d, q, base, sig, h, h', _, _, _, _, h2⟩)
              · exact absurd rfl (h doc)
              · cases h
                rw [hp] at h'; cases h'
                rcases h2 with h | h
                · exact absurd hg h
                · exact absurd ht (h t)
            · exact ⟨fun _ => ⟨doc, rfl, .inr ⟨p, hp, .inr (.inr (.inr (.inr
                ⟨hg, base, sig, t, m, hm', ht, hv⟩)))⟩⟩, fun _ => ⟨_, rfl⟩⟩
          | ok b =>
            refine ⟨fun e h => (nomatch h), ?_, ?_⟩
            · refine ⟨fun ⟨m, h⟩ => (nomatch h), ?_⟩
              rintro (h | ⟨d, q, base, sig, h, h', _, _, _, _, h2⟩)
              · exact absurd rfl (h doc)
              · cases h
                rw [hp] at h'; cases h'
                rcases h2 with h | h
                · exact absurd hg h
                · exact absurd ht (h t)
            · refine ⟨fun ⟨m, h⟩ => (nomatch h), ?_⟩
              rintro ⟨d, h, h'⟩
              cases h
              exfalso
              rcases h' with h' | ⟨q, h', h2⟩
              · rw [hp] at h'; cases h'
              · rw [hp] at h'; cases h'
                rcases h2 with h | h | h | h | ⟨_, base', sig', t', m, h1, h2, h3⟩
                · exact b1 h
                · exact b2 h
                · exact h b3
                · exact h _ _ hm'
                · rw [ht] at h2; cases h2
                  have := ((mbDecode_iff ..).mpr h1).symm.trans hm
                  simp only [Option.some.injEq, Prod.mk.injEq] at this
                  rw [this.2, hv] at h3; cases h3

end

end Verif
