import Verif.Props.Accept
import Verif.Props.Actual
import Verif.Props.Control
import Verif.Props.Interop
import Verif.Props.Padding
import Verif.Props.Replay
import Verif.Props.Sizes

/-
Further cases meeting the hypotheses of theorems, where those beside the theorem are for the other kind of document.
-/

namespace Verif.Props
open Verif Spec Hashlink

/-- `C34_vp`: the sample presentation signed with key 7. Under key 8 the result is `false`, without a document. -/
example : ∃ bs, verify Toy.env (VP Toy.env) (8 : UInt8) bs .assertionMethod = .ok ⟨false, none⟩ := by
  obtain ⟨t, _, h⟩ := C27_json_roundtrip Toy.numLaws (E := Toy.env)
    { toyVP with proof := some { toyProof with proofValue := multibaseEncode58 (Toy.env.edSign (7 : UInt8)
      (message Toy.env (optionBytes Toy.env toyProof) (vpBytes toyVP))) } }
    (by exact toyVP_complete) (fun _ _ => Toy.survives _)
    (fun _ hc => by revert hc; simp [toyVP]; rintro rfl; simp [toyVC, toySubject, Json.depth, Json.depthMembers])
  refine ⟨_, (verify_ok_iff Toy.jcsLaws _ _ _ _).mpr ⟨_, _, .base58Btc, _, _, false, h, rfl,
    ⟨toyProof_good.1, toyProof_good.2, toyProof_good.3⟩, rfl, by decide, .base58 (multibaseEncode58_spec _),
    C49_vp_canonical Toy.jcsLaws toyVP toyVP_complete, ?_, rfl⟩⟩
  decide +kernel

/-- `C57_vp`: two spellings of one signature under a presentation, and what the theorem says of them. -/
example : ∃ (bs bs' : Bytes) (v w : VP Toy.env) (q q' : Proof) (sig : Bytes),
    AcceptedVP (E := Toy.env) (7 : UInt8) bs .assertionMethod v ∧ AcceptedVP (E := Toy.env) (7 : UInt8) bs' .assertionMethod w ∧
    v.proof = some q ∧ w.proof = some q' ∧ q ≠ q' ∧ IsMultibase Toy.env .base58Btc sig q.proofValue ∧
    IsMultibase Toy.env .base16Lower sig q'.proofValue := by
  have hd : ∀ c ∈ toyVP.verifiableCredential, c.credentialSubject.1.depth ≤ 124 := fun _ hc => by
    revert hc; simp [toyVP]; rintro rfl; simp [toyVC, toySubject, Json.depth, Json.depthMembers]
  obtain ⟨t, h1, h2⟩ := accepted_vp Toy.jcsLaws Toy.numLaws Toy.edLaws (7 : UInt8) toyVP toyProof toyVP_complete
    (fun _ _ => Toy.survives _) hd toyProof_good (by decide) .base58Btc _
    (.base58 (multibaseEncode58_spec _))
  obtain ⟨t', h3, h4⟩ := accepted_vp Toy.jcsLaws Toy.numLaws Toy.edLaws (7 : UInt8) toyVP toyProof toyVP_complete
    (fun _ _ => Toy.survives _) hd toyProof_good (by decide) .base16Lower _
    (.base16 (hexEncode_spec _))
  exact ⟨_, _, _, _, _, _, _, h2, h4, rfl, rfl, by simp [multibaseEncode58], .base58 (multibaseEncode58_spec _),
    .base16 (hexEncode_spec _)⟩

/-- `C52_vp_as_vc`: where the cryptography is broken, the signature of a presentation is accepted under a credential. -/
example : ∃ (signed : VP Toy.weak) (q0 : Proof) (sig : Bytes) (bs : Bytes) (w : VC Toy.weak) (q : Proof),
    sign Toy.weak (VP Toy.weak) (7 : UInt8) weakPlainVP toyProof = .ok signed ∧ signed.proof = some q0 ∧
    IsMultibase58 sig q0.proofValue ∧ AcceptedVC (E := Toy.weak) (7 : UInt8) bs .assertionMethod w ∧ w.proof = some q ∧
    IsMultibase Toy.weak .base58Btc sig q.proofValue ∧
    Broken Toy.weak (7 : UInt8) (7 : UInt8) sig (optionBytes Toy.weak toyProof) (vpBytes weakPlainVP)
      (optionBytes Toy.weak (unvalued q)) (vcBytes (unsignedVC w)) := by
  have hg : GoodOptions Toy.weak toyProof := ⟨toyProof_good.1, toyProof_good.2, toyProof_good.3⟩
  have hs := ((C32_vp Toy.weak_jcsLaws (7 : UInt8) weakPlainVP toyProof).1 _).mpr
    ⟨hg, by decide, weakPlainVP_complete, _, multibaseEncode58_spec _, rfl⟩
  obtain ⟨t, _, h2⟩ := C26_json_roundtrip Toy.weak_numLaws { weakVC with proof := some { toyProof with
      proofValue := multibaseEncode58 (Toy.weak.edSign (7 : UInt8)
        (message Toy.weak (optionBytes Toy.weak toyProof) (vpBytes weakPlainVP))) } }
    (show VCComplete _ from weakVC_complete)
    (by simp [weakVC, Survives, Json.nums]) (by simp [weakVC, Json.depth])
  have h5 := (C33_vc Toy.weak_jcsLaws (7 : UInt8) t.toBytes .assertionMethod ⟨true, some weakVC⟩).mpr
    ⟨_, _, h2, rfl, ⟨hg.1, hg.2, hg.3⟩, rfl, by decide,
      (show VCComplete _ from weakVC_complete),
      ⟨_, _, _, .base58 (multibaseEncode58_spec _), hexEncode_spec _, rfl⟩, rfl⟩
  exact ⟨_, _, _, _, _, _, hs, rfl, multibaseEncode58_spec _, ⟨h2, _, h5⟩, rfl, .base58 (multibaseEncode58_spec _),
    C52_vp_as_vc Toy.weak_hashLaws Toy.weak_jcsLaws _ _ _ _ _ _ hs rfl (multibaseEncode58_spec _) _ _ _ _ _ _
      ⟨h2, _, h5⟩ rfl (.base58 (multibaseEncode58_spec _))⟩

theorem wide_jcsLaws : wide.JcsLaws := ⟨Toy.jcsLaws.1, Toy.jcsLaws.2, Toy.jcsLaws.3, Toy.jcsLaws.4⟩

/-- A credential and a presentation in the world of `wide`. -/
def wideVC : VC wide :=
  ⟨["c".toList], ["t".toList], ⟨.str "b".toList, trivial⟩, none, "urn:1".toList, "did:prople:x".toList⟩
def wideVP : VP wide := ⟨["c".toList], ["t".toList], [wideVC], none, none⟩

/-- `C74_signature_vc` and `C74_signature_vp`: signed documents in a world with signatures of 64 bytes. -/
example : (∃ out q, sign wide (VC wide) (7 : UInt8) wideVC toyProof = .ok out ∧ out.proof = some q ∧
      65 ≤ q.proofValue.length ∧ q.proofValue.length ≤ 89) ∧
    ∃ out q, sign wide (VP wide) (7 : UInt8) wideVP toyProof = .ok out ∧ out.proof = some q ∧
      65 ≤ q.proofValue.length ∧ q.proofValue.length ≤ 89 := by
  have hg : GoodOptions wide toyProof := ⟨toyProof_good.1, toyProof_good.2, toyProof_good.3⟩
  have hl : ∀ (k : wide.EdKP) m, (wide.edSign k m).length = 64 := fun k m => by
    have h : (List.take 63 (m ++ List.replicate 63 (0 : UInt8))).length = 63 := by
      rw [List.length_take, List.length_append, List.length_replicate]
      omega
    exact congrArg (· + 1) h
  have hs := ((C32_vc wide_jcsLaws (7 : UInt8) wideVC toyProof).1 _).mpr
    ⟨hg, by decide, ⟨by simp [wideVC], by simp [wideVC], by simp [wideVC]⟩, _, multibaseEncode58_spec _, rfl⟩
  have hs' := ((C32_vp wide_jcsLaws (7 : UInt8) wideVP toyProof).1 _).mpr
    ⟨hg, by decide, ⟨by simp [wideVP], by simp [wideVP], by simp [wideVP]⟩, _, multibaseEncode58_spec _, rfl⟩
  exact ⟨⟨_, _, hs, rfl, C74_signature_vc wide_jcsLaws _ _ _ _ _ hs rfl (hl _)⟩,
    _, _, hs', rfl, C74_signature_vp wide_jcsLaws _ _ _ _ _ hs' rfl (hl _)⟩

/-- `C74_uri`: a DID URI with a hashlink. -/
example : ∃ t uri, generateFromJson Toy.env (.ok ⟨"{}".toList⟩) = .ok t ∧
    (DID.mk (Account.new Toy.env (7 : UInt8))).buildUri (some { address := none, hl := some t }) = .ok uri ∧
    (uri.length = 150 ∨ uri.length = 151) := by
  have h := (C23_shape Toy.hashLaws ⟨"{}".toList⟩ _).mpr (multibaseEncode58_spec _)
  obtain ⟨i, hi, _, _, _, h2, _⟩ := C10_build_uri (DID.mk (Account.new Toy.env (7 : UInt8)))
  exact ⟨_, _, h, h2 _, C74_uri Toy.hashLaws _ _ _ _ h (h2 _)⟩

/-- `C75_impersonation`: a credential in the name of the DID of key 1, signed with key 9. -/
example : ∃ i docText doc signed t w, (DID.mk (Account.new Toy.env (1 : UInt8))).identity = .ok i ∧
    ((Identity.new Toy.env i.value).buildAssertionMethod ⟨(9 : UInt8), (2 : UInt8)⟩).toDoc.toJson Toy.env = .ok docText ∧
    fromSlice Doc.dec docText.toBytes = some doc ∧ doc.id = i.value ∧
    sign Toy.env (VC Toy.env) (9 : UInt8) { toyVC with issuer := i.value } toyProof = .ok signed ∧ signed.toJson = .ok t ∧
    verify Toy.env (VC Toy.env) (9 : UInt8) (utf8 t.text) .assertionMethod = .ok ⟨true, some w⟩ ∧ w.issuer = i.value := by
  obtain ⟨i, _, _, hi, _⟩ := C01_identity_syntax Toy.hashLaws (DID.mk (Account.new Toy.env (1 : UInt8)))
  obtain ⟨a, b, _, _, c, d, e, h1, h2, h3, _, _, _, h4, h5, h6, h7⟩ := C75_impersonation Toy.jcsLaws Toy.numLaws Toy.edLaws
    _ i hi ⟨(9 : UInt8), (2 : UInt8)⟩ { toyVC with issuer := i.value } toyProof toyVC_complete rfl rfl toyProof_good
    (by decide) rfl (Toy.survives _) (by simp [toyVC, toySubject, Json.depth, Json.depthMembers])
  exact ⟨i, a, b, c, d, e, hi, h1, h2, h3, h4, h5, h6, h7⟩

end Verif.Props
