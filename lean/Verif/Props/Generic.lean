import Verif.Props.Accept

/-
C70: `Integrity` for document types and cryptosuites the library does not know. `Proofable` and
`CryptoSuiteBuilder` are public traits, so what `add_proof` and `verify_proof` do is stated for every document type
and every suite; what the built-in suite does is stated for every document type.
-/

namespace Verif.Props
open Verif Spec

/-- What a document type must satisfy: the proof set is the proof read, removing it leaves none and leaves the rest,
and a document without a proof is what removing leaves. -/
structure DocLaws (T : Type) [Proofable T] : Prop where
  get_setup : ∀ (d : T) p, Proofable.getProof (Proofable.setupProof d p) = some p
  get_remove : ∀ (d : T), Proofable.getProof (Proofable.removeProof d) = none
  remove_setup : ∀ (d : T) p, Proofable.removeProof (Proofable.setupProof d p) = Proofable.removeProof d
  remove_none : ∀ (d : T), Proofable.getProof d = none → Proofable.removeProof d = d
  setup_remove : ∀ (d : T) p, Proofable.setupProof (Proofable.removeProof d) p = Proofable.setupProof d p

/-- C70: the two document types of the library are such types. -/
theorem C70_docs (E : Env) : DocLaws (VC E) ∧ DocLaws (VP E) := by
  refine ⟨⟨fun d p => rfl, fun d => rfl, fun d p => rfl, ?_, fun d p => rfl⟩,
    ⟨fun d p => rfl, fun d => rfl, fun d p => rfl, ?_, fun d p => rfl⟩⟩
  · rintro ⟨_, _, _, pr, _, _⟩ h
    have : pr = none := h
    subst this; rfl
  · rintro ⟨_, _, _, pr, _⟩ h
    have : pr = none := h
    subst this; rfl

/-- The three outcomes of validating a proof. -/
theorem validate_cases (p : Proof) :
    (p.typ = [] ∧ ∃ e, p.validate = .error e ∧ e.display = "validation error: missing type".toList) ∨
    (p.typ ≠ [] ∧ p.proofPurpose = .unknown ∧
      ∃ e, p.validate = .error e ∧ e.display = "validation error: unknown proof purpose".toList) ∨
    (p.typ ≠ [] ∧ p.proofPurpose ≠ .unknown ∧ p.validate = .ok ()) := by
  obtain ⟨_, t, u, _, _, _, _, _⟩ := p
  cases t with
  | nil => exact .inl ⟨rfl, _, rfl, rfl⟩
  | cons c t =>
    by_cases hu : u = .unknown
    · subst hu; exact .inr (.inl ⟨nofun, rfl, _, rfl, rfl⟩)
    · exact .inr (.inr ⟨nofun, hu, (proof_validate_iff _).mpr ⟨nofun, hu⟩⟩)

/-- C70: `add_proof` over any suite and any document type. It gives exactly the document with the proof the suite
made, and only when that proof has a type and a purpose; an error of the suite is passed on as it is; a proof without
type or purpose is an error of its own. -/
theorem C70_add {E : Env} {T : Type} [Proofable T] (cs : CryptoSuite E T) (kp : E.EdKP) (doc : T) (opts : Proof) :
    (∀ out, (Integrity.new cs).addProof kp doc opts = .ok out ↔
      ∃ p, cs.createProof kp doc opts = .ok p ∧ p.typ ≠ [] ∧ p.proofPurpose ≠ .unknown ∧
        out = Proofable.setupProof doc p) ∧
    (∀ e, (Integrity.new cs).addProof kp doc opts = .error e ↔
      cs.createProof kp doc opts = .error e ∨
      ∃ p, cs.createProof kp doc opts = .ok p ∧
        ((p.typ = [] ∧ e = .proofGenerationError "validation error: missing type".toList) ∨
         (p.typ ≠ [] ∧ p.proofPurpose = .unknown ∧
          e = .proofGenerationError "validation error: unknown proof purpose".toList))) := by
  have e : (Integrity.new cs).addProof kp doc opts =
      match cs.createProof kp doc opts with
      | .error e => .error e
      | .ok proof =>
        match proof.validate with
        | .error e => .error (.proofGenerationError e.display)
        | .ok _ => .ok (Proofable.setupProof doc proof) := rfl
  rw [e]
  cases cs.createProof kp doc opts with
  | error e0 => simp
  | ok p =>
    simp only [Except.ok.injEq, exists_eq_left', reduceCtorEq, false_or]
    rcases validate_cases p with ⟨h1, e0, h2, h4⟩ | ⟨h1, h2, e0, h3, h4⟩ | ⟨h1, h2, h3⟩
    · simp only [h2, h4]
      generalize "validation error: unknown proof purpose".toList = a
      generalize "validation error: missing type".toList = b
      simp [h1, eq_comm]
    · simp only [h3, h4]
      generalize "validation error: unknown proof purpose".toList = a
      generalize "validation error: missing type".toList = b
      simp [h1, h2, eq_comm]
    · rw [h3]
      simp [h1, h2, eq_comm]

/-- C70: `verify_proof` over any suite and any document type. The suite decides alone, but it is asked only about a
document that can be read, has a proof with a type and a purpose, and whose purpose is the expected one. -/
theorem C70_verify {E : Env} {T : Type} [Proofable T] (cs : CryptoSuite E T) (pub : E.EdPub) (bs : Bytes)
    (purpose : ProofPurpose) (out : Except ProofError (VerificationResult T)) :
    (Integrity.new cs).verifyProof pub bs purpose = out ↔
      (∃ e, (Proofable.parseJsonBytes bs : Except ProofError T) = .error e ∧ out = .error e) ∨
      ∃ doc, (Proofable.parseJsonBytes bs : Except ProofError T) = .ok doc ∧
        ((Proofable.getProof doc = none ∧ out = .error (.proofVerificationError "missing document proof".toList)) ∨
         ∃ p, Proofable.getProof doc = some p ∧
          ((p.typ = [] ∧ out = .error (.proofVerificationError "validation error: missing type".toList)) ∨
           (p.typ ≠ [] ∧ p.proofPurpose = .unknown ∧
            out = .error (.proofVerificationError "validation error: unknown proof purpose".toList)) ∨
           (p.typ ≠ [] ∧ p.proofPurpose ≠ .unknown ∧ p.proofPurpose ≠ purpose ∧
            out = .error (.proofVerificationError "mismatch proof purpose".toList)) ∨
           (p.typ ≠ [] ∧ p.proofPurpose ≠ .unknown ∧ p.proofPurpose = purpose ∧ out = cs.verifyProof pub doc))) := by
  have e : (Integrity.new cs).verifyProof pub bs purpose =
      match (Proofable.parseJsonBytes bs : Except ProofError T) with
      | .error e => .error e
      | .ok securedDoc =>
        match Proofable.getProof securedDoc with
        | none => .error (.proofVerificationError "missing document proof".toList)
        | some proofDoc =>
          match proofDoc.validate with
          | .error e => .error (.proofVerificationError e.display)
          | .ok _ =>
            if proofDoc.proofPurpose ≠ purpose then
              .error (.proofVerificationError "mismatch proof purpose".toList)
            else cs.verifyProof pub securedDoc := rfl
  rw [e]
  generalize "missing document proof".toList = m1
  generalize "mismatch proof purpose".toList = m2
  cases (Proofable.parseJsonBytes bs : Except ProofError T) with
  | error e0 => simp [eq_comm]
  | ok doc =>
    simp only [reduceCtorEq, false_and, exists_false, false_or, Except.ok.injEq, exists_eq_left']
    cases Proofable.getProof doc with
    | none => simp [eq_comm]
    | some p =>
      simp only [reduceCtorEq, false_and, false_or, Option.some.injEq, exists_eq_left']
      rcases validate_cases p with ⟨h1, e0, h2, h4⟩ | ⟨h1, h2, e0, h3, h4⟩ | ⟨h1, h2, h3⟩
      · simp only [h2, h4]
        generalize "validation error: unknown proof purpose".toList = a
        generalize "validation error: missing type".toList = b
        simp [h1, eq_comm]
      · simp only [h3, h4]
        generalize "validation error: unknown proof purpose".toList = a
        generalize "validation error: missing type".toList = b
        simp [h1, h2, eq_comm]
      · rw [h3]
        by_cases hq : p.proofPurpose = purpose
        · subst hq; simp [h1, h2, eq_comm]
        · simp [h1, h2, hq, eq_comm]

/-- C70: the built-in suite signs any document type: a document without a proof, with canonical text, signed with
options without a proof value, is accepted under the signer's key and gives back the document that was signed. -/
theorem C70_sign_verify {E : Env} {T : Type} [Proofable T] (D : DocLaws T) (L : E.JcsLaws) (K : E.EdLaws)
    (kp : E.EdKP) (doc : T) (opts : Proof) (t : Str) (hd : Proofable.getProof doc = none)
    (ht : Proofable.toJcs doc = .ok t) (ho : GoodOptions E opts) (hp : opts.proofPurpose ≠ .unknown)
    (hval : opts.proofValue = []) :
    ∃ signed q, sign E T kp doc opts = .ok signed ∧ Proofable.getProof signed = some q ∧ unvalued q = opts ∧
      Proofable.removeProof signed = doc ∧
      ∀ bs, (Proofable.parseJsonBytes bs : Except ProofError T) = .ok signed →
        verify E T (E.edPub kp) bs opts.proofPurpose = .ok ⟨true, some doc⟩ := by
  have hs := (addProof_iff (T := T) L kp doc opts _).mpr ⟨ho, hp, t, ht, rfl⟩
  have hr : ∀ p, Proofable.removeProof (Proofable.setupProof doc p) = doc :=
    fun p => (D.remove_setup doc p).trans (D.remove_none doc hd)
  have hu : ∀ s, unvalued { opts with proofValue := s } = opts := fun s => by
    obtain ⟨_, _, _, _, _, _, _, _⟩ := opts
    simp only at hval
    subst hval; rfl
  refine ⟨_, _, hs, D.get_setup doc _, hu _, hr _, fun bs hb => ?_⟩
  refine (verify_ok_iff L _ _ _ _).mpr ⟨_, _, .base58Btc, _, t, true, hb, D.get_setup doc _, ?_, rfl, hp,
    .base58 (multibaseEncode58_spec _), ?_, ?_, ?_⟩
  · exact ⟨ho.1, ho.2, ho.3⟩
  · rw [hr]; exact ht
  · rw [hu]; exact K.verify_sign kp _
  · rw [hr]; rfl

/-- C70: what a verifier gets back can be signed again, by anybody, for any purpose: the returned document has no
proof, and signing it gives a document that is accepted and gives back the same document. -/
theorem C70_resign {E : Env} {T : Type} [Proofable T] (D : DocLaws T) (L : E.JcsLaws) (K : E.EdLaws)
    (pub : E.EdPub) (bs : Bytes) (purpose : ProofPurpose) (r : VerificationResult T)
    (h : verify E T pub bs purpose = .ok r) (hr : r.verified = true) (kp : E.EdKP) (opts : Proof)
    (ho : GoodOptions E opts) (hp : opts.proofPurpose ≠ .unknown) (hval : opts.proofValue = []) :
    ∃ doc signed, r.document = some doc ∧ Proofable.getProof doc = none ∧ sign E T kp doc opts = .ok signed ∧
      ∀ bs', (Proofable.parseJsonBytes bs' : Except ProofError T) = .ok signed →
        verify E T (E.edPub kp) bs' opts.proofPurpose = .ok ⟨true, some doc⟩ := by
  obtain ⟨doc, p, base, sig, t, b, h1, h2, h3, h4, h5, h6, h7, h8, rfl⟩ := (verify_ok_iff L _ _ _ _).mp h
  cases b with
  | false => cases hr
  | true =>
    obtain ⟨signed, q, s1, _, _, _, s2⟩ := C70_sign_verify D L K kp (Proofable.removeProof doc) opts t
      (D.get_remove doc) h7 ho hp hval
    exact ⟨_, signed, rfl, D.get_remove doc, s1, s2⟩

/-- C70: for any document type, two accepted texts with the same signature bytes have the same canonical text and the
same options, or exhibit a hash collision or a signature valid for two messages. -/
theorem C70_one_signature {E : Env} {T : Type} [Proofable T] (H : E.HashLaws) (L : E.JcsLaws) (pub : E.EdPub)
    (bs bs' : Bytes) (purpose purpose' : ProofPurpose) (d d' : T) (q q' : Proof) (sig : Bytes) (base base' : MBase)
    (r r' : VerificationResult T)
    (ha : verify E T pub bs purpose = .ok r ∧ r.verified = true)
    (hb : verify E T pub bs' purpose' = .ok r' ∧ r'.verified = true)
    (hd : (Proofable.parseJsonBytes bs : Except ProofError T) = .ok d)
    (hd' : (Proofable.parseJsonBytes bs' : Except ProofError T) = .ok d')
    (hq : Proofable.getProof d = some q) (hq' : Proofable.getProof d' = some q')
    (hsig : IsMultibase E base sig q.proofValue) (hsig' : IsMultibase E base' sig q'.proofValue) :
    ∃ t t', Proofable.toJcs (Proofable.removeProof d) = .ok t ∧ Proofable.toJcs (Proofable.removeProof d') = .ok t' ∧
      ((t = t' ∧ unvalued q = unvalued q' ∧ purpose = purpose') ∨
        Conflict E pub sig (optionBytes E (unvalued q)) (utf8 t) (optionBytes E (unvalued q')) (utf8 t')) := by
  obtain ⟨a, p, _, s, t, b, a1, a2, _, a4, _, a6, a7, a8, ar⟩ := (verify_ok_iff L _ _ _ _).mp ha.1
  obtain ⟨a', p', _, s', t', b', b1, b2, _, b4, _, b6, b7, b8, br⟩ := (verify_ok_iff L _ _ _ _).mp hb.1
  rw [hd] at a1; cases a1
  rw [hd'] at b1; cases b1
  rw [hq] at a2; cases a2
  rw [hq'] at b2; cases b2
  cases isMultibase_bytes hsig a6
  cases isMultibase_bytes hsig' b6
  have hbt : b = true := by have := ha.2; rw [ar] at this; cases b <;> simp_all [VerificationResult.result, VerificationResult.unverifiedResult]
  have hbt' : b' = true := by have := hb.2; rw [br] at this; cases b' <;> simp_all [VerificationResult.result, VerificationResult.unverifiedResult]
  subst hbt hbt'
  refine ⟨t, t', a7, b7, ?_⟩
  rw [utf8_eq, utf8_eq]
  rcases same_or_conflict H (hexEncode_spec _) (hexEncode_spec _) a8 b8 with ⟨h1, h2⟩ | h
  · have e := optionBytes_inj L h1
    refine .inl ⟨utf8Encode_injective h2, e, ?_⟩
    rw [← a4, ← b4]
    have e' : (unvalued q).proofPurpose = (unvalued q').proofPurpose := by rw [e]
    exact e'
  · exact .inr h

/-! A document type and a suite the library does not know. -/

/-- A line of text with a proof, sent as `text|proof value`. -/
structure Note where
  line : Str
  proof : Option Proof

instance : Proofable Note where
  toJson n := .ok ⟨n.line⟩
  toJcs n := if n.line = [] then .error (.generateJSONError "empty".toList) else .ok (n.line ++ ((n.proof.map Proof.proofValue).getD []))
  validate _ := .ok ()
  getProof n := n.proof
  removeProof n := ⟨n.line, none⟩
  setupProof n p := ⟨n.line, some p⟩
  parseJsonBytes bs := match utf8Decode bs with
    | none => .error (.proofGenerationError [])
    | some s => .ok ⟨s.takeWhile (· ≠ '|'), some { toyProof with proofValue := (s.dropWhile (· ≠ '|')).tail }⟩

theorem note_laws : DocLaws Note :=
  ⟨fun _ _ => rfl, fun _ => rfl, fun _ _ => rfl, fun ⟨_, p⟩ h => by
    have : p = none := h
    subst this; rfl, fun _ _ => rfl⟩

theorem note_text (text : Str) :
    (Proofable.parseJsonBytes (utf8Encode ("pay 5|".toList ++ text)) : Except ProofError Note) =
      .ok ⟨"pay 5".toList, some { toyProof with proofValue := text }⟩ := by
  have e : ∀ bs : Bytes, (Proofable.parseJsonBytes bs : Except ProofError Note) =
    match utf8Decode bs with
    | none => .error (.proofGenerationError [])
    | some s => .ok ⟨s.takeWhile (· ≠ '|'), some { toyProof with proofValue := (s.dropWhile (· ≠ '|')).tail }⟩ :=
    fun _ => rfl
  rw [e, utf8Decode_encode]
  simp

theorem note_read (q : Proof) (hq : unvalued q = toyProof) :
    (Proofable.parseJsonBytes (utf8Encode ("pay 5|".toList ++ q.proofValue)) : Except ProofError Note) =
      .ok ⟨"pay 5".toList, some q⟩ := by
  rw [note_text, ← hq]
  rfl

/-- A note is signed, sent and accepted, then signed again by another key. -/
example : ∃ signed q signed' bs', sign Toy.env Note (7 : UInt8) ⟨"pay 5".toList, none⟩ toyProof = .ok signed ∧
    signed.proof = some q ∧
    verify Toy.env Note (7 : UInt8) (utf8Encode ("pay 5|".toList ++ q.proofValue)) .assertionMethod =
      .ok ⟨true, some ⟨"pay 5".toList, none⟩⟩ ∧
    sign Toy.env Note (9 : UInt8) ⟨"pay 5".toList, none⟩ toyProof = .ok signed' ∧
    verify Toy.env Note (9 : UInt8) bs' .assertionMethod = .ok ⟨true, some ⟨"pay 5".toList, none⟩⟩ := by
  obtain ⟨s, q, h1, h2, h3, h4, h5⟩ := C70_sign_verify note_laws Toy.jcsLaws Toy.edLaws (7 : UInt8)
    ⟨"pay 5".toList, none⟩ toyProof "pay 5".toList rfl rfl toyProof_good (by decide) rfl
  have hs : s = ⟨"pay 5".toList, some q⟩ := by
    obtain ⟨l, p⟩ := s
    have e1 : p = some q := h2
    have e2 : l = "pay 5".toList := congrArg Note.line h4
    rw [e1, e2]
  have hv := h5 _ (hs ▸ note_read q h3)
  obtain ⟨d, s', g1, g2, g3, g4⟩ := C70_resign note_laws Toy.jcsLaws Toy.edLaws _ _ _ _ hv rfl (9 : UInt8) toyProof
    toyProof_good (by decide) rfl
  cases g1
  obtain ⟨s2, q2, k1, k2, k3, k4, k5⟩ := C70_sign_verify note_laws Toy.jcsLaws Toy.edLaws (9 : UInt8)
    ⟨"pay 5".toList, none⟩ toyProof "pay 5".toList rfl rfl toyProof_good (by decide) rfl
  have hs2 : s2 = ⟨"pay 5".toList, some q2⟩ := by
    obtain ⟨l, p⟩ := s2
    have e1 : p = some q2 := k2
    have e2 : l = "pay 5".toList := congrArg Note.line k4
    rw [e1, e2]
  exact ⟨s, q, s2, _, h1, h2, hv, k1, k5 _ (hs2 ▸ note_read q2 k3)⟩

theorem note_accepts {E : Env} (L : E.JcsLaws) (K : E.EdLaws) (kp : E.EdKP) (ho : GoodOptions E toyProof) (base : MBase)
    (text : Str) (ht : IsMultibase E base
      (E.edSign kp (message E (optionBytes E toyProof) (utf8Encode "pay 5".toList))) text) :
    verify E Note (E.edPub kp) (utf8Encode ("pay 5|".toList ++ text)) .assertionMethod =
      .ok ⟨true, some ⟨"pay 5".toList, none⟩⟩ := by
  have hu : unvalued { toyProof with proofValue := text } = toyProof := rfl
  have hj : (Proofable.toJcs (Proofable.removeProof (⟨"pay 5".toList, some { toyProof with proofValue := text }⟩ : Note)) :
    Except DIDError Str) = .ok "pay 5".toList := rfl
  have hv := K.verify_sign kp (message E (optionBytes E toyProof) (utf8Encode "pay 5".toList))
  have hr : (Proofable.parseJsonBytes (utf8Encode ("pay 5|".toList ++ text)) : Except ProofError Note) = _ :=
    note_text text
  generalize utf8Encode ("pay 5|".toList ++ text) = bs at hr
  generalize "pay 5".toList = line at *
  generalize hq : ({ toyProof with proofValue := text } : Proof) = q at *
  refine (verify_ok_iff L _ _ _ _).mpr ⟨⟨line, some q⟩, q, base,
    E.edSign kp (message E (optionBytes E toyProof) (utf8Encode line)), line, true, hr, rfl, ?_, ?_, by decide, ?_, hj, ?_, rfl⟩
  · rw [← hq]; exact ⟨ho.1, ho.2, ho.3⟩
  · rw [← hq]; rfl
  · rw [← hq]; exact ht
  · rw [hu]; exact hv

/-- `C70_one_signature`: the same signature in two spellings; both texts are accepted and hold the same note. -/
example {E : Env} (L : E.JcsLaws) (K : E.EdLaws) (kp : E.EdKP) (ho : GoodOptions E toyProof) :
    ∃ (v v' : Str) (sig : Bytes), v ≠ v' ∧ IsMultibase E .base58Btc sig v ∧ IsMultibase E .base16Lower sig v' ∧
    verify E Note (E.edPub kp) (utf8Encode ("pay 5|".toList ++ v)) .assertionMethod =
      .ok ⟨true, some ⟨"pay 5".toList, none⟩⟩ ∧
    verify E Note (E.edPub kp) (utf8Encode ("pay 5|".toList ++ v')) .assertionMethod =
      .ok ⟨true, some ⟨"pay 5".toList, none⟩⟩ := by
  have a1 := multibaseEncode58_spec (E.edSign kp (message E (optionBytes E toyProof) (utf8Encode "pay 5".toList)))
  have a2 := hexEncode_spec (E.edSign kp (message E (optionBytes E toyProof) (utf8Encode "pay 5".toList)))
  exact ⟨_, _, _, fun h => not_multibase58 (h ▸ a1), .base58 a1, .base16 a2, note_accepts L K kp ho _ _ (.base58 a1),
    note_accepts L K kp ho _ _ (.base16 a2)⟩

/-- The laws above hold of the sample environment. -/
example : Toy.env.JcsLaws ∧ Toy.env.EdLaws ∧ GoodOptions Toy.env toyProof := ⟨Toy.jcsLaws, Toy.edLaws, toyProof_good⟩

/-- A suite whose proofs lack a purpose cannot sign through `Integrity`. -/
example (cs : CryptoSuite Toy.env Note) (h : ∀ kp d o, cs.createProof kp d o = .ok (Proof.new "p".toList)) (n : Note) :
    (Integrity.new cs).addProof (7 : UInt8) n toyProof =
      .error (.proofGenerationError "validation error: unknown proof purpose".toList) :=
  ((C70_add cs _ _ _).2 _).mpr (.inr ⟨_, h _ _ _, .inr ⟨by decide +kernel, rfl, rfl⟩⟩)

end Verif.Props
