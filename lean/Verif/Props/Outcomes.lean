import Verif.Props.Limits

/-
C68: the error of a failing `add_proof` or `verify_proof` (core/src/verifiable/proof/integrity.rs:44-102, eddsa.rs:37-112):
which check decides it, and its text.
-/

namespace Verif.Spec
open Verif

/-- A check that may fail: the errors it fails with. -/
abbrev Check := ProofError → Prop

/-- Fails with a `ProofGenerationError` if `P`. -/
def gen (P : Prop) (m : String) : Check := fun e => P ∧ e = .proofGenerationError m.toList

/-- Fails with a `ProofVerificationError` if `P`. -/
def ver (P : Prop) (m : String) : Check := fun e => P ∧ e = .proofVerificationError m.toList

/-- `e` is the error of the first check that fails. -/
def FirstFails : List Check → Check
  | [], _ => False
  | c :: cs, e => c e ∨ (∀ e', ¬ c e') ∧ FirstFails cs e

/-- Type and cryptosuite. -/
def suiteChecks (p : Proof) : List Check :=
  [gen (p.typ ≠ "DataIntegrityProof".toList) "invalid proof type",
   gen (p.cryptosuite = none) "missing cryptosuite",
   gen (p.cryptosuite ≠ some "eddsa-jcs-2022".toList) "invalid cryptosuite"]

/-- Creation time; the text of a time that is not one is the date library's. -/
def createdChecks (E : Env) (p : Proof) : List Check :=
  [gen (p.created = none) "invalid created format",
   fun e => ∃ c m, p.created = some c ∧ E.parseDate c = .error m ∧ e = .proofGenerationError m]

/-- The members a credential needs. -/
def vcChecks {E : Env} (v : VC E) : List Check :=
  [gen (v.contexts = []) "error generate VC: vc_error: empty context",
   gen (v.types = []) "error generate VC: vc_error: empty types",
   gen (v.credentialSubject.1 = .null) "error generate VC: vc_error: credential should not be null"]

/-- The members a presentation needs. -/
def vpChecks {E : Env} (v : VP E) : List Check :=
  [gen (v.contexts = []) "error generate JSON: vp: empty context",
   gen (v.types = []) "error generate JSON: vp: empty types",
   gen (v.verifiableCredential = []) "error generate JSON: vp: empty credentials"]

/-- What a verifier asks of the proof of a document before it looks at the signed bytes. -/
def proofChecks (E : Env) (purpose : ProofPurpose) (p : Proof) : List Check :=
  [ver (p.typ = []) "validation error: missing type",
   ver (p.proofPurpose = .unknown) "validation error: unknown proof purpose",
   ver (p.proofPurpose ≠ purpose) "mismatch proof purpose",
   fun e => (∀ base sig, ¬ IsMultibase E base sig p.proofValue) ∧ e = .proofVerificationError (E.msg (.multibase p.proofValue))]

/-- The signature library gives up on the signature text (which is not the same as rejecting it). -/
def signatureCheck (E : Env) (pub : E.EdPub) (p : Proof) (doc : Bytes) : Check := fun e =>
  ∃ base sig hex m, IsMultibase E base sig p.proofValue ∧ IsHex sig hex ∧
    E.edVerify pub (message E (optionBytes E (unvalued p)) doc) hex = .error m ∧ e = .proofVerificationError m

end Verif.Spec

namespace Verif
open Spec

theorem firstFails_append (a b : List Check) (e : ProofError) :
    FirstFails (a ++ b) e ↔ FirstFails a e ∨ (∀ e', ¬ FirstFails a e') ∧ FirstFails b e := by
  induction a with
  | nil => simp [FirstFails]
  | cons c cs ih =>
    simp only [List.cons_append, FirstFails, ih]
    constructor
    · rintro (h | ⟨h1, h | ⟨h2, h3⟩⟩)
      · exact .inl (.inl h)
      · exact .inl (.inr ⟨h1, h⟩)
      · refine .inr ⟨?_, h3⟩
        rintro e' (h | ⟨_, h⟩)
        · exact h1 _ h
        · exact h2 _ h
    · rintro ((h | ⟨h1, h⟩) | ⟨h1, h2⟩)
      · exact .inl h
      · exact .inr ⟨h1, .inl h⟩
      · refine .inr ⟨fun e' h => h1 e' (.inl h), .inr ⟨fun e' h => ?_, h2⟩⟩
        by_cases hc : ∃ e'', c e''
        · obtain ⟨e'', hc⟩ := hc; exact h1 e'' (.inl hc)
        · exact h1 e' (.inr ⟨fun e'' h => hc ⟨e'', h⟩, h⟩)

/-- A computation whose errors are described by the checks. -/
def DescribedBy {α : Type} (x : Except ProofError α) (cs : List Check) : Prop := ∀ e, x = .error e ↔ FirstFails cs e

theorem DescribedBy.fail {α : Type} {x : Except ProofError α} {cs : List Check} (h : DescribedBy x cs) {e0 : ProofError}
    (hx : x = .error e0) (ds : List Check) (e : ProofError) : FirstFails (cs ++ ds) e ↔ e0 = e := by
  rw [firstFails_append, ← h e, hx]
  constructor
  · rintro (g | ⟨g, _⟩)
    · exact Except.error.inj g
    · exact absurd ((h e0).mp hx) (g e0)
  · rintro rfl; exact .inl rfl

theorem DescribedBy.pass {α : Type} {x : Except ProofError α} {cs : List Check} (h : DescribedBy x cs) {a : α}
    (hx : x = .ok a) (ds : List Check) (e : ProofError) : FirstFails (cs ++ ds) e ↔ FirstFails ds e := by
  have hn : ∀ e', ¬ FirstFails cs e' := fun e' g => by have := (h e').mpr g; rw [hx] at this; cases this
  rw [firstFails_append]
  constructor
  · rintro (g | ⟨_, g⟩)
    · exact absurd g (hn e)
    · exact g
  · exact fun g => .inr ⟨hn, g⟩

theorem ite_error {P : Prop} [Decidable P] {e0 e : ProofError} :
    ((if P then .error e0 else .ok () : Except ProofError Unit) = .error e) ↔ P ∧ e = e0 := by
  split
  · rename_i h; simp [h, eq_comm]
  · rename_i h; simp [h]

theorem describedBy_type (p : Proof) :
    DescribedBy p.validateType [gen (p.typ ≠ "DataIntegrityProof".toList) "invalid proof type"] := by
  intro e
  unfold Proof.validateType DEFAULT_PROOF_TYPE
  simp only [FirstFails, gen, and_false, or_false]
  exact ite_error

theorem describedBy_suite (p : Proof) : DescribedBy p.validateCryptosuite
    [gen (p.cryptosuite = none) "missing cryptosuite",
     gen (p.cryptosuite ≠ some "eddsa-jcs-2022".toList) "invalid cryptosuite"] := by
  intro e
  unfold Proof.validateCryptosuite DEFAULT_PROOF_CRYPTOSUITE
  simp only [FirstFails, gen, and_false, or_false]
  cases p.cryptosuite with
  | none => simp [eq_comm]
  | some s =>
    simp only [reduceCtorEq, false_and, not_false_iff, implies_true, true_and, false_or, ne_eq, Option.some.injEq]
    exact ite_error

theorem describedBy_created (E : Env) (p : Proof) : DescribedBy (p.validateCreated E) (createdChecks E p) := by
  intro e
  unfold Proof.validateCreated createdChecks
  simp only [FirstFails, gen, and_false, or_false]
  cases p.created with
  | none => simp [eq_comm]
  | some s =>
    simp only
    split
    · rename_i h; simp [h]
    · rename_i m h; simp [h, eq_comm]

section
variable {T : Type} [Proofable T]

/-- Checks of a document are those of its canonical text. -/
def DocChecks (doc : T) (cs : List Check) : Prop :=
  DescribedBy (match (Proofable.toJcs doc : Except DIDError Str) with
    | .error e => .error (.proofGenerationError e.display)
    | .ok t => .ok t) cs

theorem create_outcome {E : Env} (kp : E.EdKP) (doc : T) (cs : List Check) (hd : DocChecks doc cs) (opts : Proof) :
    DescribedBy (EddsaJcs2022.createProof E kp doc opts) (suiteChecks opts ++ (createdChecks E opts ++ cs)) := by
  intro e
  unfold EddsaJcs2022.createProof
  rw [generateProofConfig_eq, transformDocument_eq]
  have es : suiteChecks opts ++ (createdChecks E opts ++ cs) =
    [gen (opts.typ ≠ "DataIntegrityProof".toList) "invalid proof type"] ++
      ([gen (opts.cryptosuite = none) "missing cryptosuite",
        gen (opts.cryptosuite ≠ some "eddsa-jcs-2022".toList) "invalid cryptosuite"] ++
        (createdChecks E opts ++ (cs ++ []))) := by simp [suiteChecks]
  rw [es]
  rcases except_ok_or opts.validateType with h1 | ⟨e1, h1⟩
  swap
  · rw [(describedBy_type opts).fail h1, h1]; simp
  rw [(describedBy_type opts).pass h1]
  rcases except_ok_or opts.validateCryptosuite with h2 | ⟨e2, h2⟩
  swap
  · rw [(describedBy_suite opts).fail h2, h1, h2]; simp
  rw [(describedBy_suite opts).pass h2]
  rcases except_ok_or (opts.validateCreated E) with h3 | ⟨e3, h3⟩
  swap
  · rw [(describedBy_created E opts).fail h3, h1, h2, h3]; simp
  rw [(describedBy_created E opts).pass h3]
  simp only [h1, h2, h3, Proof.toJcs]
  unfold DocChecks at hd
  cases ht : (Proofable.toJcs doc : Except DIDError Str) with
  | error e => rw [ht] at hd; rw [hd.fail rfl]; simp
  | ok t =>
    rw [ht] at hd; rw [hd.pass rfl]
    simp [generateHash, TransformedDoc.hash, ProofConfig.hash, FirstFails]

theorem create_ok {E : Env} {kp : E.EdKP} {doc : T} {opts p : Proof}
    (hx : EddsaJcs2022.createProof E kp doc opts = .ok p) :
    p.typ = opts.typ ∧ p.proofPurpose = opts.proofPurpose ∧ opts.typ ≠ [] := by
  unfold EddsaJcs2022.createProof at hx
  rw [generateProofConfig_eq, transformDocument_eq] at hx
  rcases except_ok_or opts.validateType with h1 | ⟨e1, h1⟩
  swap
  · simp [h1] at hx
  have ht : opts.typ ≠ [] := by
    intro h; unfold Proof.validateType at h1; rw [h] at h1; exact absurd h1 (by decide)
  rcases except_ok_or opts.validateCryptosuite with h2 | ⟨e2, h2⟩
  swap
  · simp [h1, h2] at hx
  rcases except_ok_or (opts.validateCreated E) with h3 | ⟨e3, h3⟩
  swap
  · simp [h1, h2, h3] at hx
  simp only [h1, h2, h3, Proof.toJcs] at hx
  cases hj : (Proofable.toJcs doc : Except DIDError Str) with
  | error e => simp [hj] at hx
  | ok t =>
    simp only [hj, TransformedDoc.hash, ProofConfig.hash, generateHash, Except.ok.injEq] at hx
    rw [← hx]
    exact ⟨rfl, rfl, ht⟩

theorem describedBy_validate {p : Proof} (h : p.typ ≠ []) (f : Str → ProofError) (e : ProofError) :
    (∃ e0, p.validate = .error e0 ∧ e = f e0.display) ↔
      p.proofPurpose = .unknown ∧ e = f "validation error: unknown proof purpose".toList := by
  obtain ⟨_, t, u, _, _, _, _, _⟩ := p
  cases t with
  | nil => exact absurd rfl h
  | cons c t =>
    have key : DIDError.display (.validateError "unknown proof purpose".toList) =
        "validation error: unknown proof purpose".toList := by decide +kernel
    cases u
    case unknown =>
      constructor
      · rintro ⟨e0, h0, rfl⟩
        have : e0 = .validateError "unknown proof purpose".toList := (Except.error.inj h0).symm
        rw [this, key]
        exact ⟨rfl, rfl⟩
      · rintro ⟨_, rfl⟩
        exact ⟨.validateError "unknown proof purpose".toList, rfl, by rw [key]⟩
    all_goals
      constructor
      · rintro ⟨e0, h0, _⟩; exact (nomatch h0)
      · rintro ⟨h0, _⟩; exact (nomatch h0)

theorem sign_outcome {E : Env} (kp : E.EdKP) (doc : T) (cs : List Check) (hd : DocChecks doc cs) (opts : Proof) :
    DescribedBy ((DataIntegrityEddsaJcs2022.build E T).addProof kp doc opts)
      (suiteChecks opts ++ createdChecks E opts ++ cs ++
        [gen (opts.proofPurpose = .unknown) "validation error: unknown proof purpose"]) := by
  intro e
  have hc := create_outcome kp doc cs hd opts
  rw [List.append_assoc (suiteChecks opts)]
  show (match EddsaJcs2022.createProof E kp doc opts with
    | .error e => .error e
    | .ok proof =>
      match proof.validate with
      | .error e => .error (.proofGenerationError e.display)
      | .ok _ => .ok (Proofable.setupProof doc proof)) = Except.error e ↔ _
  cases hx : EddsaJcs2022.createProof E kp doc opts with
  | error e0 => rw [hc.fail hx]; simp
  | ok p =>
    rw [hc.pass hx]
    have hp := create_ok hx
    obtain ⟨a, b, c⟩ := hp
    have hv := describedBy_validate (p := p) (by rw [a]; exact c) ProofError.proofGenerationError e
    rw [b] at hv
    simp only [FirstFails, gen, and_false, or_false]
    rw [← hv]
    cases p.validate with
    | ok u => simp
    | error e0 => simp [eq_comm]

theorem describedBy_proof (E : Env) (purpose : ProofPurpose) (p : Proof) (e : ProofError) :
    (match p.validate with
      | .error e => .error (.proofVerificationError e.display)
      | .ok _ =>
        if p.proofPurpose ≠ purpose then .error (.proofVerificationError "mismatch proof purpose".toList)
        else
          match E.mbDecode p.proofValue with
          | none => .error (.proofVerificationError (E.msg (.multibase p.proofValue)))
          | some x => .ok x : Except ProofError (MBase × Bytes)) = .error e ↔ FirstFails (proofChecks E purpose p) e := by
  unfold proofChecks
  simp only [FirstFails, ver, and_false, or_false]
  by_cases ht : p.typ = []
  · have hv : p.validate = .error (.validateError "missing type".toList) := by unfold Proof.validate; rw [ht]; rfl
    have key : DIDError.display (.validateError "missing type".toList) = "validation error: missing type".toList := by
      decide +kernel
    rw [hv]
    simp only [key, ht, true_and]
    constructor
    · intro h; exact .inl (Except.error.inj h).symm
    · rintro (h | ⟨h, _⟩)
      · rw [h]
      · exact absurd rfl (h _)
  simp only [ht, false_and, not_false_iff, implies_true, true_and, false_or]
  have hv := describedBy_validate (p := p) ht ProofError.proofVerificationError
  by_cases hu : p.proofPurpose = .unknown
  · cases hx : p.validate with
    | ok u =>
      obtain ⟨e0, h0, _⟩ := (hv (.proofVerificationError _)).mpr ⟨hu, rfl⟩
      rw [hx] at h0; cases h0
    | error e0 =>
      have := ((hv _).mp ⟨e0, hx, rfl⟩).2
      simp only [this, hu, true_and]
      constructor
      · intro h; exact .inl (Except.error.inj h).symm
      · rintro (h | ⟨h, _⟩)
        · rw [h]
        · exact absurd rfl (h _)
  simp only [hu, false_and, not_false_iff, implies_true, true_and, false_or]
  have hx : p.validate = .ok () := (proof_validate_iff p).mpr ⟨ht, hu⟩
  rw [hx]
  simp only
  by_cases hp : p.proofPurpose = purpose
  · simp only [hp, ne_eq, not_true, false_and, not_false_iff, implies_true, true_and, false_or, if_false]
    cases hm : E.mbDecode p.proofValue with
    | none =>
      rw [mbDecode_none] at hm
      simp only [hm, not_false_iff, implies_true, true_and]
      constructor
      · intro h; exact (Except.error.inj h).symm
      · intro h; rw [h]
    | some x =>
      obtain ⟨b, sig⟩ := x
      have := (mbDecode_iff _ _ _ _).mp hm
      constructor
      · intro h; cases h
      · rintro ⟨h, _⟩; exact absurd this (h _ _)
  · rw [if_pos hp]
    simp only [ne_eq, hp, not_false_iff, true_and]
    constructor
    · intro h; exact .inl (Except.error.inj h).symm
    · rintro (h | ⟨h, _⟩)
      · rw [h]
      · exact absurd rfl (h _)

theorem verify_outcome {E : Env} (L : E.JcsLaws) (pub : E.EdPub) (bs : Bytes) (purpose : ProofPurpose) (doc : T)
    (hb : (Proofable.parseJsonBytes bs : Except ProofError T) = .ok doc) (p : Proof)
    (hg : Proofable.getProof doc = some p) (cs : List Check) (hd : DocChecks (Proofable.removeProof doc) cs)
    (db : Bytes) (hdb : ∀ t, Proofable.toJcs (Proofable.removeProof doc) = .ok t → utf8Encode t = db) :
    DescribedBy ((DataIntegrityEddsaJcs2022.build E T).verifyProof pub bs purpose)
      (proofChecks E purpose p ++ suiteChecks p ++ cs ++ createdChecks E p ++ [signatureCheck E pub p db]) := by
  intro e
  have e1 : (DataIntegrityEddsaJcs2022.build E T).verifyProof pub bs purpose =
      match (Proofable.parseJsonBytes bs : Except ProofError T) with
      | .error e => .error e
      | .ok securedDoc =>
        match Proofable.getProof securedDoc with
        | none => .error (.proofVerificationError "missing document proof".toList)
        | some proofDoc =>
          match proofDoc.validate with
          | .error e => .error (.proofVerificationError e.display)
          | .ok _ =>
            if proofDoc.proofPurpose ≠ purpose then
              .error (.proofVerificationError "mismatch proof purpose".toList)
            else EddsaJcs2022.verifyProof E pub securedDoc := rfl
  have e2 : EddsaJcs2022.verifyProof E pub doc =
      match E.mbDecode p.proofValue with
      | none => .error (.proofVerificationError (E.msg (.multibase p.proofValue)))
      | some (_, proofBytes) =>
        match transformDocument (Proofable.removeProof doc) p.removeProofValue with
        | .error e => .error e
        | .ok transformedData =>
          match generateProofConfig E p.removeProofValue with
          | .error e => .error e
          | .ok proofConfig =>
            match generateHash (transformedData.hash E) (proofConfig.hash E) with
            | .error e => .error e
            | .ok hashedData =>
              match verifySignature E pub hashedData ⟨proofBytes⟩ with
              | .error e => .error e
              | .ok isVerified => .ok (VerificationResult.result isVerified (Proofable.removeProof doc)) := by
    unfold EddsaJcs2022.verifyProof
    simp only [hg]
    rfl
  rw [e1, hb]
  simp only
  rw [hg]
  simp only
  have hp : DescribedBy _ (proofChecks E purpose p) := describedBy_proof E purpose p
  rw [List.append_assoc, List.append_assoc, List.append_assoc]
  cases hx : p.validate with
  | error e0 => rw [hp.fail (e0 := .proofVerificationError e0.display) (by rw [hx])]; simp
  | ok u =>
    simp only
    split
    · rename_i hne
      rw [hp.fail (e0 := .proofVerificationError "mismatch proof purpose".toList) (by simp only [hx]; rw [if_pos hne])]
      simp only [Except.error.injEq]
    · rename_i hne
      rw [e2]
      cases hm : E.mbDecode p.proofValue with
      | none =>
        rw [hp.fail (e0 := .proofVerificationError (E.msg (.multibase p.proofValue))) (by simp only [hx, hm]; rw [if_neg hne])]
        simp only [Except.error.injEq]
      | some x =>
        obtain ⟨base, sig⟩ := x
        rw [hp.pass (a := (base, sig)) (by simp only [hx, hm]; rw [if_neg hne])]
        simp only
        have g1 : p.removeProofValue.validateType = p.validateType := rfl
        have g2 : p.removeProofValue.validateCryptosuite = p.validateCryptosuite := rfl
        have g3 : p.removeProofValue.validateCreated E = p.validateCreated E := rfl
        rw [generateProofConfig_eq, transformDocument_eq, g1, g2, g3]
        have es : ∀ r, suiteChecks p ++ r =
          [gen (p.typ ≠ "DataIntegrityProof".toList) "invalid proof type"] ++
            ([gen (p.cryptosuite = none) "missing cryptosuite",
              gen (p.cryptosuite ≠ some "eddsa-jcs-2022".toList) "invalid cryptosuite"] ++ r) := fun r => by
                simp [suiteChecks]
        rw [es]
        rcases except_ok_or p.validateType with h1 | ⟨e1, h1⟩
        swap
        · rw [(describedBy_type p).fail h1, h1]; simp
        rw [(describedBy_type p).pass h1]
        rcases except_ok_or p.validateCryptosuite with h2 | ⟨e2, h2⟩
        swap
        · rw [(describedBy_suite p).fail h2, h1, h2]; simp
        rw [(describedBy_suite p).pass h2]
        simp only [h1, h2]
        unfold DocChecks at hd
        cases ht : (Proofable.toJcs (Proofable.removeProof doc) : Except DIDError Str) with
        | error e => rw [ht] at hd; rw [hd.fail rfl]; simp
        | ok t =>
          rw [ht] at hd; rw [hd.pass rfl]
          simp only
          rcases except_ok_or (p.validateCreated E) with h3 | ⟨e3, h3⟩
          swap
          · rw [(describedBy_created E p).fail h3, h3]; simp
          rw [(describedBy_created E p).pass h3]
          simp only [h3, Proof.toJcs, TransformedDoc.hash, ProofConfig.hash, generateHash, verifySignature,
            ProofByte.toHex, FirstFails, and_false, or_false]
          unfold signatureCheck message
          rw [← hdb t ht, ← optionBytes_eq L, show unvalued p = p.removeProofValue from rfl]
          have hmb := (mbDecode_iff _ _ _ _).mp hm
          constructor
          · intro h
            refine ⟨base, sig, hexEncode sig, ?_⟩
            cases hs : E.edVerify pub (E.sha256 (utf8Encode (jcsText E p.removeProofValue.toTree)) ++
                E.sha256 (utf8Encode t)) (hexEncode sig) with
            | ok b => rw [hs] at h; cases h
            | error m => rw [hs] at h; cases h; exact ⟨m, hmb, hexEncode_spec _, rfl, rfl⟩
          · rintro ⟨base', sig', hex, m, k1, k2, k3, rfl⟩
            cases Props.isMultibase_bytes k1 hmb
            rw [k2.unique] at k3
            rw [k3]

theorem verify_missing {E : Env} (pub : E.EdPub) (bs : Bytes) (purpose : ProofPurpose) (doc : T)
    (hb : (Proofable.parseJsonBytes bs : Except ProofError T) = .ok doc) (hg : Proofable.getProof doc = none) :
    (DataIntegrityEddsaJcs2022.build E T).verifyProof pub bs purpose =
      .error (.proofVerificationError "missing document proof".toList) := by
  unfold Integrity.verifyProof
  rw [hb]
  simp only
  rw [hg]

theorem vc_docChecks {E : Env} (v : VC E) : DocChecks v (vcChecks v) := by
  intro e
  have k1 : DIDError.display (.generateVCError "vc_error: empty context".toList) =
    "error generate VC: vc_error: empty context".toList := by decide +kernel
  have k2 : DIDError.display (.generateVCError "vc_error: empty types".toList) =
    "error generate VC: vc_error: empty types".toList := by decide +kernel
  have k3 : DIDError.display (.generateVCError "vc_error: credential should not be null".toList) =
    "error generate VC: vc_error: credential should not be null".toList := by decide +kernel
  rw [show Proofable.toJcs v = v.toJcs from rfl]
  unfold VC.toJcs VC.validate vcChecks
  simp only [FirstFails, gen, and_false, or_false]
  rw [← k1, ← k2, ← k3]
  generalize "vc_error: empty context".toList = a
  generalize "vc_error: empty types".toList = b
  generalize "vc_error: credential should not be null".toList = c
  obtain ⟨x, y, s, _, _, _⟩ := v
  obtain ⟨s, _⟩ := s
  cases x <;> cases y <;> cases s <;> simp [VC.isNullValue, eq_comm]

theorem vp_docChecks {E : Env} (v : VP E) : DocChecks v (vpChecks v) := by
  intro e
  have k1 : DIDError.display (.generateJSONError "vp: empty context".toList) =
    "error generate JSON: vp: empty context".toList := by decide +kernel
  have k2 : DIDError.display (.generateJSONError "vp: empty types".toList) =
    "error generate JSON: vp: empty types".toList := by decide +kernel
  have k3 : DIDError.display (.generateJSONError "vp: empty credentials".toList) =
    "error generate JSON: vp: empty credentials".toList := by decide +kernel
  rw [show Proofable.toJcs v = v.toJcs from rfl]
  unfold VP.toJcs VP.validate vpChecks
  simp only [FirstFails, gen, and_false, or_false]
  rw [← k1, ← k2, ← k3]
  generalize "vp: empty context".toList = a
  generalize "vp: empty types".toList = b
  generalize "vp: empty credentials".toList = c
  obtain ⟨x, y, s, _, _⟩ := v
  cases x <;> cases y <;> cases s <;> simp [eq_comm]

end
end Verif

namespace Verif.Props
open Verif Spec

/-! ### C68 -/

/-- C68: a failing `add_proof` on a credential fails with the error of the first failing check, in this order: type,
cryptosuite, creation time, members of the credential, purpose; and it succeeds if none fails. -/
theorem C68_sign_vc {E : Env} (kp : E.EdKP) (v : VC E) (opts : Proof) (e : ProofError) :
    sign E (VC E) kp v opts = .error e ↔
      FirstFails (suiteChecks opts ++ createdChecks E opts ++ vcChecks v ++
        [gen (opts.proofPurpose = .unknown) "validation error: unknown proof purpose"]) e :=
  sign_outcome kp v _ (vc_docChecks v) opts e

/-- C68: the same of presentations. -/
theorem C68_sign_vp {E : Env} (kp : E.EdKP) (v : VP E) (opts : Proof) (e : ProofError) :
    sign E (VP E) kp v opts = .error e ↔
      FirstFails (suiteChecks opts ++ createdChecks E opts ++ vpChecks v ++
        [gen (opts.proofPurpose = .unknown) "validation error: unknown proof purpose"]) e :=
  sign_outcome kp v _ (vp_docChecks v) opts e

/-- C68: a failing `verify_proof` on a credential: the text is not read, there is no proof, or the first failing check
decides, in this order: type present, purpose known, purpose as expected, multibase, type, cryptosuite, members of the
credential, creation time, signature library. -/
theorem C68_verify_vc {E : Env} (L : E.JcsLaws) (pub : E.EdPub) (bs : Bytes) (purpose : ProofPurpose) (e : ProofError) :
    verify E (VC E) pub bs purpose = .error e ↔
      ((∀ v, VC.parseJsonBytes E bs ≠ .ok v) ∧ e = .proofGenerationError (E.msg (.vc bs))) ∨
      ∃ v, VC.parseJsonBytes E bs = .ok v ∧
        ((v.proof = none ∧ e = .proofVerificationError "missing document proof".toList) ∨
        ∃ p, v.proof = some p ∧
          FirstFails (proofChecks E purpose p ++ suiteChecks p ++ vcChecks v ++ createdChecks E p ++
            [signatureCheck E pub p (vcBytes (unsignedVC v))]) e) := by
  cases hb : VC.parseJsonBytes E bs with
  | error e0 =>
    have h0 : e0 = .proofGenerationError (E.msg (.vc bs)) := by
      unfold VC.parseJsonBytes at hb
      split at hb
      · cases hb
      · exact (Except.error.inj hb).symm
    have h1 : verify E (VC E) pub bs purpose = .error e0 := (verify_cases (T := VC E) L pub bs purpose).1 e0 hb
    rw [h1, h0]
    simp [eq_comm]
  | ok v =>
    simp only [ne_eq, Except.ok.injEq, forall_eq', false_and, false_or, exists_eq_left']
    cases hp : v.proof with
    | none =>
      have : verify E (VC E) pub bs purpose = .error (.proofVerificationError "missing document proof".toList) :=
        verify_missing pub bs purpose v hb hp
      rw [this]
      simp [eq_comm]
    | some p =>
      simp only [reduceCtorEq, false_and, false_or, Option.some.injEq, exists_eq_left']
      exact verify_outcome L pub bs purpose v hb p hp (vcChecks v) (vc_docChecks (unsignedVC v)) _
        (fun t ht => ((vc_toJcs_iff L _ t).mp ht).2) e

/-- C68: the same of presentations. -/
theorem C68_verify_vp {E : Env} (L : E.JcsLaws) (pub : E.EdPub) (bs : Bytes) (purpose : ProofPurpose) (e : ProofError) :
    verify E (VP E) pub bs purpose = .error e ↔
      ((∀ v, VP.parseJsonBytes E bs ≠ .ok v) ∧ e = .proofGenerationError (E.msg (.vp bs))) ∨
      ∃ v, VP.parseJsonBytes E bs = .ok v ∧
        ((v.proof = none ∧ e = .proofVerificationError "missing document proof".toList) ∨
        ∃ p, v.proof = some p ∧
          FirstFails (proofChecks E purpose p ++ suiteChecks p ++ vpChecks v ++ createdChecks E p ++
            [signatureCheck E pub p (vpBytes (unsignedVP v))]) e) := by
  cases hb : VP.parseJsonBytes E bs with
  | error e0 =>
    have h0 : e0 = .proofGenerationError (E.msg (.vp bs)) := by
      unfold VP.parseJsonBytes at hb
      split at hb
      · cases hb
      · exact (Except.error.inj hb).symm
    have h1 : verify E (VP E) pub bs purpose = .error e0 := (verify_cases (T := VP E) L pub bs purpose).1 e0 hb
    rw [h1, h0]
    simp [eq_comm]
  | ok v =>
    simp only [ne_eq, Except.ok.injEq, forall_eq', false_and, false_or, exists_eq_left']
    cases hp : v.proof with
    | none =>
      have : verify E (VP E) pub bs purpose = .error (.proofVerificationError "missing document proof".toList) :=
        verify_missing pub bs purpose v hb hp
      rw [this]
      simp [eq_comm]
    | some p =>
      simp only [reduceCtorEq, false_and, false_or, Option.some.injEq, exists_eq_left']
      exact verify_outcome L pub bs purpose v hb p hp (vpChecks v) (vp_docChecks (unsignedVP v)) _
        (fun t ht => ((vp_toJcs_iff L _ t).mp ht).2) e

-- everything is wrong: signing names the type, verifying the missing type; with an unexpected purpose and a good type,
-- verifying names the purpose before the cryptosuite
example : sign Toy.env (VC Toy.env) (7 : UInt8) (VC.new Toy.env [] []) Proof.default =
      .error (.proofGenerationError "invalid proof type".toList) ∧
    FirstFails (proofChecks Toy.env .authentication Proof.default) (.proofVerificationError
      "validation error: missing type".toList) ∧
    FirstFails (proofChecks Toy.env .authentication ⟨[], "x".toList, .assertionMethod, [], [], none, none, none⟩ ++
        suiteChecks ⟨[], "x".toList, .assertionMethod, [], [], none, none, none⟩)
      (.proofVerificationError "mismatch proof purpose".toList) := by
  refine ⟨rfl, .inl ⟨rfl, rfl⟩, ?_⟩
  refine .inr ⟨?_, .inr ⟨?_, .inl ⟨by decide, rfl⟩⟩⟩
  · rintro e ⟨h, _⟩; exact (nomatch h)
  · rintro e ⟨h, _⟩; exact (nomatch h)

-- good options, incomplete document: signing names the missing context although the purpose is unknown as well
example : sign Toy.env (VP Toy.env) (7 : UInt8) (VP.new Toy.env)
      { toyProof with proofPurpose := .unknown } =
    .error (.proofGenerationError "error generate JSON: vp: empty context".toList) := rfl

end Verif.Props
