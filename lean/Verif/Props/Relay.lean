import Verif.Lemmas.Depth
import Verif.Props.Canonical
import Verif.Props.Doc
import Verif.Props.Json
import Verif.Props.Reader

/-
C59, C60: documents passed on by a third party.
-/

namespace Verif.Props
open Verif Spec

/-! ### C59 -/

/-- C59: with any cryptosuite and any kind of document, the outcome of `verify_proof` (result or error) is determined
by what `parse_json_bytes` makes of the bytes. -/
theorem C59_only_parsed {E : Env} {T : Type} [Proofable T] (suite : CryptoSuite E T) (bs bs' : Bytes)
    (h : (Proofable.parseJsonBytes bs : Except ProofError T) = Proofable.parseJsonBytes bs') (pub : E.EdPub)
    (purpose : ProofPurpose) :
    (Integrity.new suite).verifyProof pub bs purpose = (Integrity.new suite).verifyProof pub bs' purpose := by
  unfold Integrity.verifyProof
  rw [h]

/-- C59: if the bytes are read alike, verification goes alike. -/
theorem C59_alike {E : Env} {T : Type} [Proofable T] (suite : CryptoSuite E T) (bs bs' : Bytes)
    (h : Alike (Proofable.parseJsonBytes bs : Except ProofError T) (Proofable.parseJsonBytes bs')) (pub : E.EdPub)
    (purpose : ProofPurpose) :
    Alike ((Integrity.new suite).verifyProof pub bs purpose) ((Integrity.new suite).verifyProof pub bs' purpose) := by
  rcases h with h | ⟨m, m', h, h'⟩
  · exact Or.inl (C59_only_parsed suite bs bs' h pub purpose)
  · refine Or.inr ⟨m, m', ?_, ?_⟩ <;> unfold Integrity.verifyProof
    · rw [h]
    · rw [h']

theorem parsed_depth_vc {E : Env} {bs : Bytes} {v : VC E} (h : VC.parseJsonBytes E bs = .ok v) :
    v.credentialSubject.1.depth ≤ 126 := by
  unfold VC.parseJsonBytes fromSlice at h
  cases hr : Raw.parse bs with
  | none => rw [hr] at h; cases h
  | some r =>
    rw [hr] at h
    simp only at h
    cases hd : VC.dec E 128 r with
    | none => rw [hd] at h; cases h
    | some w =>
      rw [hd] at h
      cases h
      have := VC.dec_depth (by omega) hd
      omega

theorem parsed_depth_vp {E : Env} {bs : Bytes} {v : VP E} (h : VP.parseJsonBytes E bs = .ok v) :
    ∀ c ∈ v.verifiableCredential, c.credentialSubject.1.depth ≤ 124 := by
  unfold VP.parseJsonBytes fromSlice at h
  cases hr : Raw.parse bs with
  | none => rw [hr] at h; cases h
  | some r =>
    rw [hr] at h
    simp only at h
    cases hd : VP.dec E 128 r with
    | none => rw [hd] at h; cases h
    | some w =>
      rw [hd] at h
      cases h
      intro c hc
      have := VP.dec_depth (by omega) hd c hc
      omega

/-- C59: a credential that was received can be printed again unless it is incomplete, whatever bytes it came from; if
its floating point numbers survive printing, every verifier gives the printed text the same outcome as the received
bytes. Verifying an incomplete one is an error under every key and purpose. -/
theorem C59_vc {E : Env} (L : E.JcsLaws) (N : E.NumLaws) (bs : Bytes) (v : VC E) (hb : VC.parseJsonBytes E bs = .ok v) :
    (VCComplete v → Survives E v.credentialSubject.1 → ∃ t, v.toJson = .ok t ∧
      VC.parseJsonBytes E (utf8 t.text) = .ok v ∧
      ∀ pub purpose, verify E (VC E) pub (utf8 t.text) purpose = verify E (VC E) pub bs purpose) ∧
    (¬ VCComplete v → (∀ t, v.toJson ≠ .ok t) ∧
      ∀ pub purpose r, verify E (VC E) pub bs purpose ≠ .ok r) := by
  refine ⟨fun hv hn => ?_, fun hv => ⟨fun t ht => hv ((C24_serialise_iff v).1.mp ⟨t, ht⟩), ?_⟩⟩
  · obtain ⟨t, h1, h2⟩ := C26_json_roundtrip N v hv hn (parsed_depth_vc hb)
    have h2' : VC.parseJsonBytes E (utf8 t.text) = .ok v := by rw [utf8_eq]; exact h2
    exact ⟨t, h1, h2', fun pub purpose =>
      C59_only_parsed (EddsaJcs2022.suite E (VC E)) _ _ (h2'.trans hb.symm) pub purpose⟩
  · intro pub purpose r hr
    obtain ⟨v', _, _, _, t, _, h1, _, _, _, _, _, h2, _⟩ := (verify_ok_iff L pub bs purpose r).mp hr
    cases hb.symm.trans h1
    exact hv ((C24_serialise_iff (unsignedVC v)).2.1.mp ⟨t, h2⟩)

/-- C59: the same for presentations. -/
theorem C59_vp {E : Env} (L : E.JcsLaws) (N : E.NumLaws) (bs : Bytes) (v : VP E) (hb : VP.parseJsonBytes E bs = .ok v) :
    (VPComplete v → (∀ c ∈ v.verifiableCredential, Survives E c.credentialSubject.1) → ∃ t, v.toJson = .ok t ∧
      VP.parseJsonBytes E (utf8 t.text) = .ok v ∧
      ∀ pub purpose, verify E (VP E) pub (utf8 t.text) purpose = verify E (VP E) pub bs purpose) ∧
    (¬ VPComplete v → (∀ t, v.toJson ≠ .ok t) ∧
      ∀ pub purpose r, verify E (VP E) pub bs purpose ≠ .ok r) := by
  refine ⟨fun hv hn => ?_, fun hv => ⟨fun t ht => hv ((C25_serialise_iff v).1.mp ⟨t, ht⟩), ?_⟩⟩
  · obtain ⟨t, h1, h2⟩ := C27_json_roundtrip N v hv hn (parsed_depth_vp hb)
    have h2' : VP.parseJsonBytes E (utf8 t.text) = .ok v := by rw [utf8_eq]; exact h2
    exact ⟨t, h1, h2', fun pub purpose =>
      C59_only_parsed (EddsaJcs2022.suite E (VP E)) _ _ (h2'.trans hb.symm) pub purpose⟩
  · intro pub purpose r hr
    obtain ⟨v', _, _, _, t, _, h1, _, _, _, _, _, h2, _⟩ := (verify_ok_iff L pub bs purpose r).mp hr
    cases hb.symm.trans h1
    exact hv ((C25_serialise_iff (unsignedVP v)).2.1.mp ⟨t, h2⟩)

/-- C59: a credential passed on as canonical text is accepted by the same verifiers. -/
theorem C59_canonical_vc {E : Env} (L : E.JcsLaws) (bs : Bytes) (v : VC E) (hb : VC.parseJsonBytes E bs = .ok v)
    (hv : VCComplete v) (hn : Rereads E v.credentialSubject.1) :
    ∃ t w, v.toJcs = .ok t ∧ VC.parseJsonBytes E (utf8 t) = .ok w ∧ SameVC v w ∧
      ∀ pub purpose, AcceptedVC pub bs purpose v ↔ AcceptedVC pub (utf8 t) purpose w := by
  obtain ⟨t, h1, h2, _⟩ := C53_vc L v hv (parsed_depth_vc hb)
  obtain ⟨w, h3, h4⟩ := h2.mpr hn
  exact ⟨t, w, h1, h3, h4, fun pub purpose => C53_same_verdict_vc L v w h4 _ _ hb h3 pub purpose⟩

/-- C59: the same for presentations. -/
theorem C59_canonical_vp {E : Env} (L : E.JcsLaws) (bs : Bytes) (v : VP E) (hb : VP.parseJsonBytes E bs = .ok v)
    (hv : VPComplete v) (hn : ∀ c ∈ v.verifiableCredential, Rereads E c.credentialSubject.1) :
    ∃ t w, v.toJcs = .ok t ∧ VP.parseJsonBytes E (utf8 t) = .ok w ∧ SameVP v w ∧
      ∀ pub purpose, AcceptedVP pub bs purpose v ↔ AcceptedVP pub (utf8 t) purpose w := by
  obtain ⟨t, h1, h2, _⟩ := C53_vp L v hv (parsed_depth_vp hb)
  obtain ⟨w, h3, h4⟩ := h2.mpr hn
  exact ⟨t, w, h1, h3, h4, fun pub purpose => C53_same_verdict_vp L v w h4 _ _ hb h3 pub purpose⟩

/-- C59: a DID document that was received can be printed again and reads back. -/
theorem C59_doc {E : Env} (N : E.NumLaws) (bs : Bytes) (d : Doc) (hb : fromSlice Doc.dec bs = some d) :
    ∃ t, d.toJson E = .ok t ∧ fromSlice Doc.dec (utf8 t.text) = fromSlice Doc.dec bs := by
  obtain ⟨t, h1, h2⟩ := C18_json_roundtrip N d
  exact ⟨t, h1, by rw [utf8_eq, hb]; exact h2⟩

/-- The text reads as a complete credential. -/
theorem shortTextMoved_complete : (match VC.parseJsonBytes Toy.env shortTextMoved with
    | .ok v => !v.contexts.isEmpty && !v.types.isEmpty && (match v.credentialSubject.1 with
      | .null => false | _ => true)
    | .error _ => false) = true := by decide +kernel

/-- `C59_vc`: a received text with white space, another member order and no proof, passed on as another text. -/
example : ∃ v t, VC.parseJsonBytes Toy.env shortTextMoved = .ok v ∧ v.toJson = .ok t ∧
    ∀ pub purpose, verify Toy.env (VC Toy.env) pub (utf8 t.text) purpose =
      verify Toy.env (VC Toy.env) pub shortTextMoved purpose := by
  have h := shortTextMoved_complete
  cases hv : VC.parseJsonBytes Toy.env shortTextMoved with
  | error e => rw [hv] at h; cases h
  | ok v =>
    rw [hv] at h
    have hc : VCComplete v := by
      simp only [Bool.and_eq_true, Bool.not_eq_true', List.isEmpty_eq_false_iff] at h
      exact ⟨h.1.1, h.1.2, fun e => by rw [e] at h; exact absurd h.2 (by simp)⟩
    obtain ⟨t, h1, _, h2⟩ := (C59_vc Toy.jcsLaws Toy.numLaws _ v hv).1 hc (Toy.survives _)
    exact ⟨v, t, rfl, h1, h2⟩

/-- `C59_vp`, `C59_canonical_vc`, `C59_canonical_vp`: signed documents passed on. -/
example : (∃ (v : VC Toy.env) (bs : Bytes) (r : VerificationResult (VC Toy.env)), VC.parseJsonBytes Toy.env bs = .ok v ∧ VCComplete v ∧
      Rereads Toy.env v.credentialSubject.1 ∧ Survives Toy.env v.credentialSubject.1 ∧
      verify Toy.env (VC Toy.env) (7 : UInt8) bs .assertionMethod = .ok r ∧ r.verified = true) ∧
    ∃ (v : VP Toy.env) (bs : Bytes) (r : VerificationResult (VP Toy.env)), VP.parseJsonBytes Toy.env bs = .ok v ∧ VPComplete v ∧
      (∀ c ∈ v.verifiableCredential, Rereads Toy.env c.credentialSubject.1 ∧ Survives Toy.env c.credentialSubject.1) ∧
      verify Toy.env (VP Toy.env) (7 : UInt8) bs .assertionMethod = .ok r ∧ r.verified = true := by
  obtain ⟨s, q, sig, bs, r, _, _, _, h1, h2, h3, _⟩ := toy_signed_vc
  obtain ⟨s', q', sig', bs', r', _, _, _, h1', h2', h3', _⟩ := toy_signed_vp
  obtain ⟨v, _, a1, _, _, _, _, a2, _⟩ := (C33_vc Toy.jcsLaws _ _ _ r).mp ⟨h1, h2⟩
  obtain ⟨v', _, b1, _, _, _, _, b2, _⟩ := (C33_vp Toy.jcsLaws _ _ _ r').mp ⟨h1', h2'⟩
  exact ⟨⟨v, bs, r, a1, a2, toy_rereads _, Toy.survives _, h1, h2⟩,
    v', bs', r', b1, b2, fun _ _ => ⟨toy_rereads _, Toy.survives _⟩, h1', h2'⟩

/-- `C59_only_parsed`, `C59_alike`: two texts that parse to the same credential have the same outcome under every key. -/
example (pub : UInt8) (purpose : ProofPurpose) : verify Toy.env (VC Toy.env) pub shortText purpose =
    verify Toy.env (VC Toy.env) pub shortTextMoved purpose := by
  have h := shortText_moved
  revert h
  generalize shortText = a
  generalize shortTextMoved = b
  exact fun h => C59_only_parsed (EddsaJcs2022.suite Toy.env (VC Toy.env)) a b h pub purpose

/-- A DID document passed on. -/
example : ∃ bs t, fromSlice Doc.dec bs = some toyDoc ∧ toyDoc.toJson Toy.env = .ok t ∧
    fromSlice Doc.dec (utf8 t.text) = fromSlice Doc.dec bs := by
  obtain ⟨t, _, h⟩ := C18_json_roundtrip Toy.numLaws toyDoc
  obtain ⟨t', h1, h2⟩ := C59_doc Toy.numLaws _ toyDoc h
  exact ⟨_, t', h, h1, h2⟩

/-! ### C60 -/

/-- C60: a received credential that is put into a presentation (`VP::add_credential`) comes out of the verified
presentation unchanged, and every verifier gives the text printed from it the same outcome as the bytes the holder
received. -/
theorem C60_embedded {E : Env} (L : E.JcsLaws) (N : E.NumLaws) (K : E.EdLaws) (kp : E.EdKP) (bs : Bytes) (c : VC E)
    (hb : VC.parseJsonBytes E bs = .ok c) (hc : VCComplete c) (hn : Survives E c.credentialSubject.1)
    (hd : c.credentialSubject.1.depth ≤ 124) (v : VP E) (hctx : v.contexts ≠ []) (htyp : v.types ≠ [])
    (hproof : v.proof = none)
    (hother : ∀ x ∈ v.verifiableCredential, Survives E x.credentialSubject.1 ∧ x.credentialSubject.1.depth ≤ 124)
    (opts : Proof) (ho : GoodOptions E opts) (hp : opts.proofPurpose ≠ .unknown) (hval : opts.proofValue = []) :
    ∃ signed vt w ct, sign E (VP E) kp (v.addCredential c) opts = .ok signed ∧ signed.toJson = .ok vt ∧
      verify E (VP E) (E.edPub kp) (utf8 vt.text) opts.proofPurpose = .ok ⟨true, some w⟩ ∧
      w.contexts = v.contexts ∧ w.types = v.types ∧ w.holder = v.holder ∧
      w.verifiableCredential = v.verifiableCredential ++ [c] ∧ c.toJson = .ok ct ∧
      ∀ pub purpose, verify E (VC E) pub (utf8 ct.text) purpose = verify E (VC E) pub bs purpose := by
  obtain ⟨signed, h1, _, h2⟩ := C31_vp L N K kp (v.addCredential c) opts
    ⟨hctx, htyp, by simp [VP.addCredential]⟩ hproof ho hp hval
  obtain ⟨vt, h3, h4⟩ := h2 (by
    intro x hx
    rcases List.mem_append.mp hx with hx | hx
    · exact hother x hx
    · rw [List.mem_singleton.mp hx]; exact ⟨hn, hd⟩)
  obtain ⟨ct, h5, _, h6⟩ := (C59_vc L N bs c hb).1 hc hn
  exact ⟨signed, vt, _, ct, h1, h3, h4, rfl, rfl, rfl, rfl, h5, h6⟩

/-- C60: every complete credential found in a received presentation can be printed and verified on its own. -/
theorem C60_extract {E : Env} (N : E.NumLaws) (bs : Bytes) (v : VP E) (hb : VP.parseJsonBytes E bs = .ok v)
    (c : VC E) (hc : c ∈ v.verifiableCredential) (hv : VCComplete c) (hn : Survives E c.credentialSubject.1) :
    ∃ t, c.toJson = .ok t ∧ VC.parseJsonBytes E (utf8 t.text) = .ok c := by
  obtain ⟨t, h1, h2⟩ := C26_json_roundtrip N c hv hn (by have := parsed_depth_vp hb c hc; omega)
  exact ⟨t, h1, by rw [utf8_eq]; exact h2⟩

/-- C60: the bound of `C60_embedded` is sharp. A credential whose subject nests 125 or 126 containers can be received,
but the presentation made from it is signed and printed without complaint and then rejected by every verifier as
unreadable. -/
theorem C60_too_deep {E : Env} (L : E.JcsLaws) (N : E.NumLaws) (kp : E.EdKP) (c : VC E)
    (hd : 124 < c.credentialSubject.1.depth) (v : VP E) (hctx : v.contexts ≠ []) (htyp : v.types ≠ [])
    (opts : Proof) (ho : GoodOptions E opts) (hp : opts.proofPurpose ≠ .unknown) :
    ∃ signed vt m, sign E (VP E) kp (v.addCredential c) opts = .ok signed ∧ signed.toJson = .ok vt ∧
      ∀ pub purpose, verify E (VP E) pub (utf8 vt.text) purpose = .error (.proofGenerationError m) := by
  have hs := ((C32_vp L kp (v.addCredential c) opts).1 _).mpr
    ⟨ho, hp, ⟨hctx, htyp, by simp [VP.addCredential]⟩, _, multibaseEncode58_spec _, rfl⟩
  obtain ⟨vt, m, h1, h2⟩ := C27_too_deep N (E := E)
    ⟨v.contexts, v.types, v.verifiableCredential ++ [c],
      some ⟨opts.id, opts.typ, opts.proofPurpose, multibaseEncode58 (E.edSign kp (message E (optionBytes E opts)
        (vpBytes (v.addCredential c)))), opts.verificationMethod, opts.created, opts.expires, opts.cryptosuite⟩, v.holder⟩
    ⟨hctx, htyp, by simp⟩ c (by simp) hd
  refine ⟨_, vt, m, hs, h1, fun pub purpose => ?_⟩
  have h3 : (Proofable.parseJsonBytes (utf8 vt.text) : Except ProofError (VP E)) = .error (.proofGenerationError m) := by
    rw [utf8_eq]; exact h2
  show Integrity.verifyProof _ _ _ _ = _
  unfold Integrity.verifyProof
  rw [h3]

/-- A signed credential received, put into a presentation beside another one, and taken out again. -/
example : ∃ bs c signed vt w ct, VC.parseJsonBytes Toy.env bs = .ok c ∧ c.proof ≠ none ∧
    sign Toy.env (VP Toy.env) (9 : UInt8) (toyVP.addCredential c) toyProof = .ok signed ∧ signed.toJson = .ok vt ∧
    verify Toy.env (VP Toy.env) (9 : UInt8) (utf8 vt.text) .assertionMethod = .ok ⟨true, some w⟩ ∧
    w.verifiableCredential = [toyVC, c] ∧ c.toJson = .ok ct ∧
    ∃ r, verify Toy.env (VC Toy.env) (7 : UInt8) (utf8 ct.text) .assertionMethod = .ok r ∧ r.verified = true := by
  obtain ⟨s, q, sig, bs, r, hs, hq, _, h1, h2, h3, _⟩ := toy_signed_vc
  obtain ⟨c, _, a1, _, _, _, _, a2, _⟩ := (C33_vc Toy.jcsLaws _ _ _ r).mp ⟨h1, h2⟩
  rw [h3] at a1; cases a1
  have hd : s.credentialSubject.1.depth ≤ 124 := by
    obtain ⟨_, _, _, _, _, e⟩ := ((C32_vc Toy.jcsLaws (7 : UInt8) toyVC toyProof).1 s).mp hs
    rw [e]
    simp [toyVC, toySubject, Json.depth, Json.depthMembers]
  obtain ⟨signed, vt, w, ct, b1, b2, b3, _, _, _, b4, b5, b6⟩ := C60_embedded Toy.jcsLaws Toy.numLaws Toy.edLaws (9 : UInt8) bs s h3 a2
    (Toy.survives _) hd toyVP (by simp [toyVP]) (by simp [toyVP]) rfl
    (fun _ hc => ⟨Toy.survives _, by revert hc; simp [toyVP]; rintro rfl; simp [toyVC, toySubject, Json.depth, Json.depthMembers]⟩)
    toyProof toyProof_good (by decide) rfl
  exact ⟨bs, s, signed, vt, w, ct, h3, by rw [hq]; nofun, b1, b2, b3, b4, b5, r, (b6 _ _).trans h1, h2⟩

/-- A credential taken out of a received presentation. -/
example : ∃ bs t, VP.parseJsonBytes Toy.env bs = .ok toyVP ∧ toyVC ∈ toyVP.verifiableCredential ∧
    toyVC.toJson = .ok t ∧ VC.parseJsonBytes Toy.env (utf8 t.text) = .ok toyVC := by
  obtain ⟨t, _, h⟩ := C27_json_roundtrip Toy.numLaws toyVP toyVP_complete (fun _ _ => Toy.survives _)
    (fun _ hc => by revert hc; simp [toyVP]; rintro rfl; simp [toyVC, toySubject, Json.depth, Json.depthMembers])
  have hm : toyVC ∈ toyVP.verifiableCredential := by simp [toyVP]
  obtain ⟨t', h1, h2⟩ := C60_extract Toy.numLaws _ toyVP h toyVC hm toyVC_complete (Toy.survives _)
  exact ⟨_, t', h, hm, h1, h2⟩

/-- A credential that can be received but not presented. -/
example : (∃ t, (nestVC 125).toJson = .ok t ∧ VC.parseJsonBytes Toy.env (utf8 t.text) = .ok (nestVC 125)) ∧
    ∃ signed vt m, sign Toy.env (VP Toy.env) (7 : UInt8) (toyVP.addCredential (nestVC 125)) toyProof = .ok signed ∧
      signed.toJson = .ok vt ∧
      ∀ pub purpose, verify Toy.env (VP Toy.env) pub (utf8 vt.text) purpose = .error (.proofGenerationError m) := by
  refine ⟨?_, C60_too_deep Toy.jcsLaws Toy.numLaws (7 : UInt8) (nestVC 125) (by simp [nestVC, nestArr_depth]) toyVP
    (by simp [toyVP]) (by simp [toyVP]) toyProof toyProof_good (by decide)⟩
  obtain ⟨t, h1, h2⟩ := C26_json_roundtrip Toy.numLaws (nestVC 125) ⟨by decide, by decide, nestArr_ne_null _⟩
    (Toy.survives _) (by simp [nestVC, nestArr_depth])
  exact ⟨t, h1, by rw [utf8_eq]; exact h2⟩

end Verif.Props
