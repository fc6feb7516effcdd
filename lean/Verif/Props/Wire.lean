import Verif.Lemmas.Canon
import Verif.Props.Documents
import Verif.Props.Doc

/-
C29, C46, C49: the exact texts written, and what canonical texts determine.
-/

namespace Verif.Props
open Verif Spec

/-! ### C49 -/

/-- C49: JSON text of a DID document. -/
theorem C49_doc_text {E : Env} (L : E.NumLaws) (d : Doc) : d.toJson E = .ok ⟨plainText E (docObject d)⟩ := by
  unfold Doc.toJson JSONValue.ofString
  rw [jsonText_eq L, doc_tree]

/-- C49: JSON text of a credential. -/
theorem C49_vc_text {E : Env} (L : E.NumLaws) (v : VC E) (hv : VCComplete v) :
    v.toJson = .ok ⟨plainText E (vcObject v)⟩ := by
  unfold VC.toJson JSONValue.ofString
  rw [(C24_validate v).1.mpr hv, jsonText_eq L, vc_tree]

/-- C49: JSON text of a presentation. -/
theorem C49_vp_text {E : Env} (L : E.NumLaws) (v : VP E) (hv : VPComplete v) :
    v.toJson = .ok ⟨plainText E (vpObject v)⟩ := by
  unfold VP.toJson JSONValue.ofString
  rw [(C25_validate v).1.mpr hv, jsonText_eq L, vp_tree]

/-- C49: canonical text of a credential. -/
theorem C49_vc_canonical {E : Env} (L : E.JcsLaws) (v : VC E) (hv : VCComplete v) :
    v.toJcs = .ok (canonicalText E (vcObject v)) := by
  unfold VC.toJcs
  rw [(C24_validate v).1.mpr hv, vc_tree, jcsText_eq L _ (vc_distinct v)]

/-- C49: canonical text of a presentation. -/
theorem C49_vp_canonical {E : Env} (L : E.JcsLaws) (v : VP E) (hv : VPComplete v) :
    v.toJcs = .ok (canonicalText E (vpObject v)) := by
  unfold VP.toJcs
  rw [(C25_validate v).1.mpr hv, vp_tree, jcsText_eq L _ (vp_distinct v)]

/-- C49: canonical text of a proof. -/
theorem C49_proof_canonical {E : Env} (L : E.JcsLaws) (p : Proof) :
    p.toJcs E = .ok (canonicalText E (proofObject p)) := by
  unfold Proof.toJcs
  rw [proof_tree, jcsText_eq L _ (proof_distinct p)]

/-- A sample proof. -/
def toyProof : Proof :=
  { id := "p1".toList, typ := "DataIntegrityProof".toList, proofPurpose := .assertionMethod,
    proofValue := [], verificationMethod := "did:x#k".toList, created := some "2024".toList, expires := none,
    cryptosuite := some "eddsa-jcs-2022".toList }

/-- The sample credential with the sample proof. -/
def toySigned : VC Toy.env := { toyVC with proof := some toyProof }

theorem toySigned_complete : VCComplete toySigned := ⟨by decide, by decide, fun h => by cases h⟩

example : toySigned.toJson = .ok ⟨("{\"@context\":[\"urn:c\"],\"type\":[\"T\"],\"credentialSubject\":{\"a\":1,\"b\":\"\\\"\"}," ++
    "\"proof\":{\"id\":\"p1\",\"type\":\"DataIntegrityProof\",\"proofPurpose\":\"assertionMethod\",\"proofValue\":\"\"," ++
    "\"verificationMethod\":\"did:x#k\",\"created\":\"2024\",\"cryptosuite\":\"eddsa-jcs-2022\"}," ++
    "\"id\":\"urn:1\",\"issuer\":\"did:x\"}").toList⟩ := by
  rw [C49_vc_text Toy.numLaws _ toySigned_complete]
  decide +kernel

/-- `C49_vp_text`: a presentation without credentials of its own. -/
example : (⟨["c".toList], ["t".toList], [⟨["c".toList], [], ⟨.null, trivial⟩, none, "i".toList, "j".toList⟩], none, none⟩ : VP Toy.env).toJson =
    .ok ⟨("{\"@context\":[\"c\"],\"type\":[\"t\"],\"verifiableCredential\":[{\"@context\":[\"c\"],\"type\":[],\"credentialSubject\":null," ++
      "\"id\":\"i\",\"issuer\":\"j\"}]}").toList⟩ := by
  rw [C49_vp_text Toy.numLaws _ ⟨by simp, by simp, by simp⟩]
  decide +kernel

example : toyVC.toJcs = .ok ("{\"@context\":[\"urn:c\"],\"credentialSubject\":{\"a\":1,\"b\":\"\\\"\"}," ++
    "\"id\":\"urn:1\",\"issuer\":\"did:x\",\"type\":[\"T\"]}").toList := by
  rw [C49_vc_canonical Toy.jcsLaws _ ⟨by decide, by decide, fun h => by cases h⟩]
  decide +kernel

example : toyDoc.toJson Toy.env = .ok ⟨("{\"@context\":[],\"id\":\"\\\"\\u0001é\",\"authentication\":[]," ++
    "\"capabilityDelegation\":[{\"id\":\"did:prople:x#q\",\"controller\":\"did:prople:x\"," ++
    "\"type\":\"Ed25519VerificationKey2020\",\"publicKeyMultibase\":\"zq\"}]}").toList⟩ := by
  rw [C49_doc_text Toy.numLaws]
  decide +kernel

/-! ### C46 -/

/-- C46: text of a connection credential, with the literal member names. -/
theorem C46_text {E : Env} (L : E.NumLaws) (address did : Str) :
    UserConnectionCredential.toJson E ⟨⟨⟨address, did⟩⟩⟩ = .ok ⟨
      "{\"UserConnectionCredential\":{\"@context\":{\"userAgentAddress\":".toList ++ quote address ++
      ",\"userDid\":".toList ++ quote did ++ "}}}".toList⟩ := by
  unfold UserConnectionCredential.toJson JSONValue.ofString
  rw [jsonText_eq L, connection_tree]
  simp only [plainText, connectionObject, object, List.filterMap_cons, Option.map_some, List.filterMap_nil, write,
    writeMembers, List.isEmpty_nil, List.isEmpty_cons, if_true]
  congr 2
  have e1 : quote "UserConnectionCredential".toList = "\"UserConnectionCredential\"".toList := by decide +kernel
  have e2 : quote "@context".toList = "\"@context\"".toList := by decide +kernel
  have e3 : quote "userAgentAddress".toList = "\"userAgentAddress\"".toList := by decide +kernel
  have e4 : quote "userDid".toList = "\"userDid\"".toList := by decide +kernel
  rw [e1, e2, e3, e4]
  simp [List.append_assoc]

/-! ### C29 -/

/-- C29: the canonical text of a credential determines it and is determined by it. -/
theorem C29_vc {E : Env} (L : E.JcsLaws) (v w : VC E) (hv : VCComplete v) (hw : VCComplete w) :
    v.toJcs = w.toJcs ↔ SameVC v w := by
  unfold VC.toJcs
  rw [(C24_validate v).1.mpr hv, (C24_validate w).1.mpr hw, vc_tree, vc_tree]
  simp only [Except.ok.injEq]
  exact ⟨fun h => vc_inj (jcsText_inj L h), fun h => jcsText_congr (SameVC.canonTree h)⟩

/-- C29: the same for presentations. -/
theorem C29_vp {E : Env} (L : E.JcsLaws) (v w : VP E) (hv : VPComplete v) (hw : VPComplete w) :
    v.toJcs = w.toJcs ↔ SameVP v w := by
  unfold VP.toJcs
  rw [(C25_validate v).1.mpr hv, (C25_validate w).1.mpr hw, vp_tree, vp_tree]
  simp only [Except.ok.injEq]
  exact ⟨fun h => vp_inj (jcsText_inj L h), fun h => jcsText_congr (SameVP.canonTree h)⟩

/-- C29: the same for proofs, which contain no numbers. -/
theorem C29_proof {E : Env} (L : E.JcsLaws) (p q : Proof) : p.toJcs E = q.toJcs E ↔ p = q := by
  unfold Proof.toJcs
  rw [proof_tree, proof_tree]
  simp only [Except.ok.injEq]
  exact ⟨fun h => proof_inj (jcsText_inj L h), fun h => by rw [h]⟩

/-- C29: canonical text does not depend on the order in which the members of an object are given. -/
theorem C29_order_independent {E : Env} (L : E.JcsLaws) (l l' : List (Str × Json (Num E.F)))
    (hn : (l.map (·.1)).Nodup) (hp : l.Perm l') : jcsText E (.obj l) = jcsText E (.obj l') := by
  unfold jcsText Json.jcs
  rw [Json.canon_obj_perm L.key_total L.key_trans L.key_antisymm hn hp]

example : toyVC.toJcs ≠ { toyVC with issuer := "did:y".toList }.toJcs := by
  rw [Ne, C29_vc Toy.jcsLaws _ _ ⟨by decide, by decide, fun h => by cases h⟩ ⟨by decide, by decide, fun h => by cases h⟩]
  intro h
  exact absurd h.issuer (by decide)

/-- `C29_vp`: presentations for different holders. -/
example : ({ toyVP with holder := some "h".toList } : VP Toy.env).toJcs ≠ ({ toyVP with holder := some "k".toList } : VP Toy.env).toJcs := by
  rw [Ne, C29_vp Toy.jcsLaws _ _ ⟨by decide, by decide, by simp [toyVP]⟩ ⟨by decide, by decide, by simp [toyVP]⟩]
  intro h
  exact absurd h.holder (by decide)

/-- `C29_order_independent`: two members exchanged. -/
example : jcsText Toy.env (.obj [("b".toList, .null), ("a".toList, .bool true)]) =
    jcsText Toy.env (.obj [("a".toList, .bool true), ("b".toList, .null)]) :=
  C29_order_independent Toy.jcsLaws _ _ (by simp) (.swap _ _ _)

end Verif.Props
