import Verif.Props.Canonical
import Verif.Props.Did
import Verif.Props.Doc
import Verif.Props.Hashlink
import Verif.Props.Secure

/-
C55, C56: from a DID over its URI and document to the verification of a signature.
-/

namespace Verif.Props
open Verif Spec Hashlink

/-! ### C55 -/

/-- Decrypting and then reading the PEM text is what `from_keysecure` does. -/
theorem fromKeysecure_of_decrypt {E : Env} {pw pem : Str} {ks : KeySecure} (h : ks.decrypt E pw = .ok (utf8 pem)) :
    Account.fromKeysecure E pw ks = Account.fromPem E pem := by
  unfold KeySecure.decrypt at h
  unfold Account.fromKeysecure
  cases hc : hexDecode ks.cipherText with
  | none => rw [hc] at h; cases h
  | some c =>
    rw [hc] at h
    simp only [bind, Except.bind] at h
    simp only
    cases hk : E.kdf ks.kdfParams pw (utf8Encode ks.salt) with
    | error m => rw [hk] at h; cases h
    | ok k =>
      rw [hk] at h
      simp only at h ⊢
      cases hn : hexDecode ks.nonce with
      | none => rw [hn] at h; cases h
      | some n =>
        rw [hn] at h
        simp only at h ⊢
        by_cases hl : n.length ≠ 24
        · rw [if_pos hl] at h; cases h
        · rw [if_neg hl] at h
          rw [if_neg hl, h]
          simp [utf8_eq, utf8Decode_encode]

/-- The stored key of a slot and the published entries of the slot belong together: the first entry decodes to a
key that accepts what the account restored from the stored key signs, for credentials and presentations
of any content. -/
def SlotWorks (E : Env) (pw did : Str) (entries : Option (List Primary)) (stored : Option PrivateKeyPairs) : Prop :=
  ∃ e1 e2 pub pairs account, entries = some [e1, e2] ∧ stored = some pairs ∧
    e1.controller = did ∧ e1.decodePubKey E = .ok (.edDSA pub) ∧
    DID.fromKeysecure E pw pairs.verification = .ok ⟨account⟩ ∧
    (∀ (v : VC E) opts, VCComplete v → v.proof = none → GoodOptions E opts → opts.proofPurpose ≠ .unknown →
      opts.proofValue = [] → Survives E v.credentialSubject.1 → v.credentialSubject.1.depth ≤ 126 →
      ∃ signed t, sign E (VC E) account.pair v opts = .ok signed ∧ signed.toJson = .ok t ∧
        verify E (VC E) pub (utf8 t.text) opts.proofPurpose = .ok ⟨true, some v⟩) ∧
    (∀ (v : VP E) opts, VPComplete v → v.proof = none → GoodOptions E opts → opts.proofPurpose ≠ .unknown →
      opts.proofValue = [] →
      (∀ c ∈ v.verifiableCredential, Survives E c.credentialSubject.1 ∧ c.credentialSubject.1.depth ≤ 124) →
      ∃ signed t, sign E (VP E) account.pair v opts = .ok signed ∧ signed.toJson = .ok t ∧
        verify E (VP E) pub (utf8 t.text) opts.proofPurpose = .ok ⟨true, some v⟩) ∧
    ∃ secret hex, e2.decodePubKey E = .ok (.ecdh (E.dhPub secret)) ∧ IsHex (E.dhSecret secret) hex ∧
      pairs.decryptAgreement E pw = .ok (utf8 hex)

theorem slot_works {E : Env} (L : E.JcsLaws) (N : E.NumLaws) (K : E.EdLaws) (D : E.DhLaw) (P : E.PemLaw)
    {pw did a b : Str} {s : MethodSeed E} {entries : Option (List Primary)} {stored : Option PrivateKeyPairs}
    (h : EntriesIs E did a b (some s) entries) (h' : SlotDecrypts E pw (some s) stored) :
    SlotWorks E pw did entries stored := by
  obtain ⟨l, rfl, ⟨kv, ka, rfl, h1, h2⟩⟩ := h
  obtain ⟨pairs, pem, hex, rfl, h3, h4, h5, h6⟩ := h'
  refine ⟨_, _, E.edPub (E.edGenerate s.ed), pairs, ⟨E.edGenerate s.ed⟩, rfl, rfl, rfl,
    (C15_eddsa _ _).mpr ⟨rfl, _, isKeyText_holds h1, K.pub_bytes _⟩, ?_, ?_, ?_, _, hex,
    (C15_ecdh _ _).mpr ⟨rfl, _, isKeyText_holds h2, D _⟩, h4, h6⟩
  · refine ((C04_did_keysecure pw pairs.verification).1 _).mpr ?_
    have hd : pairs.verification.decrypt E pw = .ok (utf8 pem) := by
      unfold PrivateKeyPairs.decryptVerification at h5
      cases hx : pairs.verification.decrypt E pw with
      | error e => rw [hx] at h5; cases h5
      | ok x => rw [hx] at h5; cases h5; rfl
    rw [fromKeysecure_of_decrypt hd]
    exact (C02_pem_accept pem _ (P _ _ h3)).1
  · intro v opts g1 g2 g3 g4 g5 g6 g7
    obtain ⟨signed, k1, _, k2⟩ := C31_vc L N K (E.edGenerate s.ed) v opts g1 g2 g3 g4 g5
    obtain ⟨t, k3, k4⟩ := k2 g6 g7
    exact ⟨signed, t, k1, k3, k4⟩
  · intro v opts g1 g2 g3 g4 g5 g6
    obtain ⟨signed, k1, _, k2⟩ := C31_vp L N K (E.edGenerate s.ed) v opts g1 g2 g3 g4 g5
    obtain ⟨t, k3, k4⟩ := k2 g6
    exact ⟨signed, t, k1, k3, k4⟩

/-- C55: an identity is made from a DID, any calls are made on it, its document is written as JSON and its private
keys are exported and written as JSON. Whoever reads the document has the DID and, for every slot that was built, a
key that verifies what the owner signs after restoring their account from the stored keys. -/
theorem C55_chain {E : Env} (L : E.JcsLaws) (N : E.NumLaws) (K : E.EdLaws) (D : E.DhLaw) (P : E.PemLaw)
    (A : E.AeadLaw) (C : KeySecureCodec E) (d : DID E) (i : Identity E) (hi : d.identity = .ok i)
    (ops : List (IdOp E)) (r : PrivateKeysRandom) (pw : Str) (out : IdentityPrivateKeyPairs)
    (hout : (ops.foldl IdOp.apply i).buildPrivateKeys r pw = .ok out) (hC : ∀ ks ∈ exportedRecords out, C.Keeps ks) :
    ∃ docText keyText doc keys, (ops.foldl IdOp.apply i).toDoc.toJson E = .ok docText ∧ out.toJson C = .ok keyText ∧
      fromSlice Doc.dec docText.toBytes = some doc ∧
      fromSlice (IdentityPrivateKeyPairs.dec C) keyText.toBytes = some keys ∧
      doc.id = i.value ∧ keys.identity = i.value ∧
      (firstAuth ops ≠ none → SlotWorks E pw i.value doc.authentication keys.authentication) ∧
      (firstAssertion ops ≠ none → SlotWorks E pw i.value doc.assertion keys.assertion) := by
  have hnew : i = Identity.new E i.value := by
    obtain ⟨j, _, _, hj, _, h1, h2⟩ := identity_isDid d
    rw [hi] at hj
    cases hj
    obtain ⟨a, b, c⟩ := i
    simp only at h1 h2
    subst h1 h2
    rfl
  have hrun : ops.foldl IdOp.apply i = idRun i.value ops := by
    unfold idRun
    rw [← hnew]
  rw [hrun] at hout ⊢
  obtain ⟨dt, h1, h2⟩ := C18_json_roundtrip N (idRun i.value ops).toDoc
  obtain ⟨kt, keys, h3, h4, h5, h6, h7⟩ := C54_stored N A C i.value ops r pw out hout hC
  obtain ⟨g1, _, _, _, g5, g6, _⟩ := C12_document i.value ops
  refine ⟨dt, kt, _, keys, h1, h3, h2, h4, g1, h5, ?_, ?_⟩
  · intro hs
    cases hf : firstAuth ops with
    | none => exact absurd hf hs
    | some s =>
      rw [hf] at g5 h6
      exact slot_works L N K D P g5 h6
  · intro hs
    cases hf : firstAssertion ops with
    | none => exact absurd hf hs
    | some s =>
      rw [hf] at g6 h7
      exact slot_works L N K D P g6 h7

/-- `C55_chain` on the toy environment: both slots are built and exported. -/
example (d : DID Toy.env) (i : Identity Toy.env) (hi : d.identity = .ok i) :
    ∃ out, (toyOps.foldl IdOp.apply i).buildPrivateKeys ⟨toyRandom, toyRandom, toyRandom, toyRandom⟩ "pw".toList =
        .ok out ∧ (∀ ks ∈ exportedRecords out, toyCodec.Keeps ks) ∧ firstAuth toyOps ≠ none ∧
      firstAssertion toyOps ≠ none := by
  cases hi
  exact ⟨_, rfl, fun ks _ => toyCodec_keeps ks, nofun, nofun⟩

/-! ### C56 -/

/-- C56: a URI carrying the hashlink of a JSON value gives back the DID, the address and the hashlink; the value
passes the check against it, and another value passes iff it has the same BLAKE3 hash. -/
theorem C56_uri {E : Env} (H : E.HashLaws) (d : DID E) (i : Identity E) (hi : d.identity = .ok i) (t : JSONValue)
    (address : Option Str) (ha : Clean address) :
    ∃ link uri, generateFromJson E (.ok t) = .ok link ∧ d.buildUri (some ⟨address, some link⟩) = .ok uri ∧
      DID.parseUri uri = some (.ok (i.value, ⟨address, some link⟩)) ∧
      ∀ t' : JSONValue, verifyFromJson E (.ok t') link = .ok () ↔
        E.blake3 (utf8 t'.text) = E.blake3 (utf8 t.text) := by
  obtain ⟨link, h1, _⟩ := (C20_roundtrip H (.ok t)).1 t rfl
  obtain ⟨uri, h3⟩ := C07_builds d ⟨address, some link⟩ (.inr nofun)
  have hl : Clean (some link) := by
    intro x hx
    cases hx
    have hs := payload_safe ((C23_shape H t link).mp h1)
    exact ⟨fun m => (hs _ m).2.1 rfl, fun m => (hs _ m).2.2.1 rfl, fun m => (hs _ m).2.2.2.1 rfl⟩
  refine ⟨link, uri, h1, h3, (C07_uri_roundtrip d i hi _ uri h3).mpr ⟨ha, hl⟩, ?_⟩
  intro t'
  rw [(C21_exact H t' link).1, C23_shape H]
  rw [C23_shape H] at h1
  constructor
  · intro h
    have e := multibaseEncode58_injective (h.unique.symm.trans h1.unique)
    simpa using e
  · intro h
    rw [h]
    exact h1

/-- C56 (DID documents): the document that passes the check against the hashlink in the URI is the one it was made
for, or a BLAKE3 collision. -/
theorem C56_document {E : Env} (H : E.HashLaws) (N : E.NumLaws) (d : DID E) (i : Identity E)
    (hi : d.identity = .ok i) (doc : Doc) (address : Option Str) (ha : Clean address) :
    ∃ link uri, generateFromJson E (doc.toJson E) = .ok link ∧ d.buildUri (some ⟨address, some link⟩) = .ok uri ∧
      DID.parseUri uri = some (.ok (i.value, ⟨address, some link⟩)) ∧
      verifyFromJson E (doc.toJson E) link = .ok () ∧
      ∀ doc' : Doc, verifyFromJson E (doc'.toJson E) link = .ok () →
        doc' = doc ∨ ∃ t t', doc.toJson E = .ok t ∧ doc'.toJson E = .ok t' ∧ utf8 t.text ≠ utf8 t'.text ∧
          E.blake3 (utf8 t.text) = E.blake3 (utf8 t'.text) := by
  obtain ⟨t, ht, hr⟩ := C18_json_roundtrip N doc
  obtain ⟨link, uri, h1, h2, h3, h4⟩ := C56_uri H d i hi t address ha
  refine ⟨link, uri, by rw [ht]; exact h1, h2, h3, by rw [ht]; exact (h4 t).mpr rfl, ?_⟩
  intro doc' hv
  obtain ⟨t', ht', hr'⟩ := C18_json_roundtrip N doc'
  rw [ht', h4] at hv
  by_cases e : utf8 t.text = utf8 t'.text
  · left
    rw [utf8_eq, utf8_eq] at e
    unfold JSONValue.toBytes at hr hr'
    rw [← e, hr] at hr'
    exact (Option.some.inj hr').symm
  · exact .inr ⟨t, t', ht, ht', e, hv.symm⟩

/-- `C56_uri`, `C56_document`: a URI for the sample document. -/
example (d : DID Toy.env) (i : Identity Toy.env) (hi : d.identity = .ok i) (doc : Doc) : ∃ link uri,
    generateFromJson Toy.env (doc.toJson Toy.env) = .ok link ∧
    d.buildUri (some ⟨some "/ip4/10.0.0.1/tcp/80".toList, some link⟩) = .ok uri ∧
    DID.parseUri uri = some (.ok (i.value, ⟨some "/ip4/10.0.0.1/tcp/80".toList, some link⟩)) ∧
    verifyFromJson Toy.env (doc.toJson Toy.env) link = .ok () := by
  obtain ⟨l, u, h1, h2, h3, h4, -⟩ := C56_document Toy.hashLaws Toy.numLaws d i hi doc (some "/ip4/10.0.0.1/tcp/80".toList)
    (by intro t h; cases h; decide +kernel)
  exact ⟨l, u, h1, h2, h3, h4⟩

example : Clean (none : Option Str) ∧ Clean (some "/ip4/10.0.0.1/tcp/80".toList) := by
  constructor
  · intro t h; cases h
  · intro t h; cases h; decide +kernel

end Verif.Props
