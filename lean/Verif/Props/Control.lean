import Verif.Props.Chain
import Verif.Props.Public
import Verif.Props.Traces

/-
C75: a DID document does not show who controls the DID. The document is made from the DID text and fresh keys; the
account key, whose hash is the DID, takes no part in it. So no check of the document against the DID, or against the
account's public key, can tell the owner's documents from those anybody else makes for the same DID. Only the hashlink
of a URI got from the owner does.
-/

namespace Verif.Props
open Verif Spec Hashlink

/-- C75: a check of document texts against the account's public key and the DID that accepts every document the owner
can make accepts every document anybody makes with `Identity::new` on the DID text. -/
theorem C75_no_check {E : Env} (d : DID E) (i : Identity E) (hi : d.identity = .ok i)
    (check : E.EdPub → Str → JSONValue → Prop)
    (hown : ∀ (ops : List (IdOp E)) t, (ops.foldl IdOp.apply i).toDoc.toJson E = .ok t → check d.account.pubkey i.value t)
    (ops : List (IdOp E)) (t : JSONValue) (ht : (ops.foldl IdOp.apply (Identity.new E i.value)).toDoc.toJson E = .ok t) :
    check d.account.pubkey i.value t := by
  refine hown ops t ?_
  have e := identity_new hi
  rw [← e] at ht
  exact ht

/-- C75: with keys of their own, anybody makes a document for the DID of somebody else: it reads as a document with
that DID, all its entries are controlled by that DID, and the key in it verifies the credentials they sign in the name
of that DID (or any other name). -/
theorem C75_impersonation {E : Env} (L : E.JcsLaws) (N : E.NumLaws) (K : E.EdLaws) (d : DID E) (i : Identity E)
    (_hi : d.identity = .ok i) (s : MethodSeed E) (v : VC E) (opts : Proof) (hv : VCComplete v) (hproof : v.proof = none)
    (hissuer : v.issuer = i.value)
    (ho : GoodOptions E opts) (hp : opts.proofPurpose ≠ .unknown) (hval : opts.proofValue = [])
    (hn : Survives E v.credentialSubject.1) (hd : v.credentialSubject.1.depth ≤ 126) :
    ∃ docText doc entry rest signed t w,
      ((Identity.new E i.value).buildAssertionMethod s).toDoc.toJson E = .ok docText ∧
      fromSlice Doc.dec docText.toBytes = some doc ∧ doc.id = i.value ∧ doc.assertion = some (entry :: rest) ∧
      (∀ e ∈ entry :: rest, e.controller = i.value) ∧
      entry.decodePubKey E = .ok (.edDSA (E.edPub (E.edGenerate s.ed))) ∧
      sign E (VC E) (E.edGenerate s.ed) v opts = .ok signed ∧ signed.toJson = .ok t ∧
      verify E (VC E) (E.edPub (E.edGenerate s.ed)) (utf8 t.text) opts.proofPurpose = .ok ⟨true, some w⟩ ∧
      w.issuer = i.value := by
  obtain ⟨docText, h1, h2⟩ := C18_json_roundtrip N (idRun i.value [IdOp.assertion s]).toDoc
  obtain ⟨g1, _, _, _, _, g6, _⟩ := C12_document i.value [IdOp.assertion s]
  obtain ⟨l, e, ⟨kv, ka, rfl, k1, k2⟩⟩ := g6
  obtain ⟨signed, s1, _, s3⟩ := C31_vc L N K (E.edGenerate s.ed) v opts hv hproof ho hp hval
  obtain ⟨t, s4, s5⟩ := s3 hn hd
  refine ⟨docText, _, _, _, signed, t, v, h1, h2, g1, e, ?_, ?_, s1, s4, s5, hissuer⟩
  · intro x hx
    simp only [List.mem_cons, List.not_mem_nil, or_false] at hx
    rcases hx with rfl | rfl <;> rfl
  · exact (C15_eddsa _ _).mpr ⟨rfl, _, isKeyText_holds k1, K.pub_bytes _⟩

/-- C75: a document somebody else makes for the DID passes the check against the hashlink of the owner's document only
if it publishes the owner's keys, or BLAKE3 collides. -/
theorem C75_link {E : Env} (H : E.HashLaws) (d : DID E) (i : Identity E) (hi : d.identity = .ok i) (N : E.NumLaws)
    (ops ops' : List (IdOp E)) (t t' : JSONValue) (link : Str)
    (ht : (ops.foldl IdOp.apply i).toDoc.toJson E = .ok t)
    (ht' : (ops'.foldl IdOp.apply (Identity.new E i.value)).toDoc.toJson E = .ok t')
    (hg : generateFromJson E (.ok t) = .ok link) (hv : verifyFromJson E (.ok t') link = .ok ()) :
    ((firstAuth ops').map publicPart = (firstAuth ops).map publicPart ∧
      (firstAssertion ops').map publicPart = (firstAssertion ops).map publicPart) ∨
    (utf8 t.text ≠ utf8 t'.text ∧ E.blake3 (utf8 t.text) = E.blake3 (utf8 t'.text)) := by
  rcases C22_integrity H t t' link hg hv with e | e
  · left
    rw [identity_new hi] at ht
    have : (idRun i.value ops').toDoc.toJson E = (idRun i.value ops).toDoc.toJson E := by
      refine ht'.trans (Eq.trans ?_ ht.symm)
      obtain ⟨a⟩ := t
      obtain ⟨b⟩ := t'
      exact congrArg (fun x => Except.ok (JSONValue.mk x)) e.symm
    exact ((C62_text N _ _ _ _).mp this).2
  · exact .inr e

/-- Two sets of keys for one DID: the documents differ, and both can be made by the owner and by others. -/
example (v : Str) : (idRun v [IdOp.assertion (E := Toy.env) ⟨(1 : UInt8), (2 : UInt8)⟩]).toDoc ≠
    (idRun v [IdOp.assertion (E := Toy.env) ⟨(3 : UInt8), (4 : UInt8)⟩]).toDoc := by
  intro h
  have h3 := ((C62_document _ _ _ _).mp h).2.2
  have h4 : ([1], [0, 2]) = (([3], [0, 4]) : Bytes × Bytes) := Option.some.inj h3
  exact absurd h4 (by decide)

/-- `C75_no_check`: a check that a document names the DID passes for the documents of the owner, and so for others.
`C75_link`: the same operations from the bare DID give the text the hashlink was made of. -/
example (d : DID Toy.env) (i : Identity Toy.env) (hi : d.identity = .ok i) (op : IdOp Toy.env) : ∃ t link,
    ([op].foldl IdOp.apply i).toDoc.toJson Toy.env = .ok t ∧
    ([op].foldl IdOp.apply (Identity.new Toy.env i.value)).toDoc.toJson Toy.env = .ok t ∧
    generateFromJson Toy.env (.ok t) = .ok link ∧ verifyFromJson Toy.env (.ok t) link = .ok () := by
  have hi' : i = Identity.new Toy.env i.value := by
    cases hi
    rfl
  obtain ⟨t, ht, -⟩ := C18_json_roundtrip Toy.numLaws ([op].foldl IdOp.apply i).toDoc
  obtain ⟨link, h1, h2⟩ := (C20_roundtrip Toy.hashLaws (.ok t)).1 t rfl
  exact ⟨t, link, ht, by rw [← hi']; exact ht, h1, h2⟩

example (issuer : Str) : VCComplete { toyVC with issuer := issuer } ∧ toyVC.proof = none ∧
    toyVC.credentialSubject.1.depth ≤ 126 :=
  ⟨toyVC_complete, rfl, by simp [toyVC, toySubject, Json.depth, Json.depthMembers]⟩

end Verif.Props
