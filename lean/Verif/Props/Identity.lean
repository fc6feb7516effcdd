import Verif.Spec.Multibase
import Verif.Model.Identity
import Verif.Toy

/-
C11–C15, C19: identities, their documents and their key material.
-/

namespace Verif.Props
open Verif Spec

/-! ### C11 -/

/-- A call on an identity. -/
inductive IdOp (E : Env) where
  | auth (s : MethodSeed E)
  | assertion (s : MethodSeed E)

/-- The effect of a call. -/
def IdOp.apply {E : Env} (i : Identity E) : IdOp E → Identity E
  | .auth s => i.buildAuthMethod s
  | .assertion s => i.buildAssertionMethod s

/-- The state after `Identity::new(v)` followed by the calls. -/
def idRun {E : Env} (v : Str) (ops : List (IdOp E)) : Identity E := ops.foldl IdOp.apply (Identity.new E v)

/-- Randomness of the first authentication call of a history. -/
def firstAuth {E : Env} : List (IdOp E) → Option (MethodSeed E)
  | [] => none
  | .auth s :: _ => some s
  | .assertion _ :: r => firstAuth r

/-- Randomness of the first assertion call of a history. -/
def firstAssertion {E : Env} : List (IdOp E) → Option (MethodSeed E)
  | [] => none
  | .assertion s :: _ => some s
  | .auth _ :: r => firstAssertion r

/-- `t` is the published text of the serialised public key `b`: multibase base58btc of its hex text. -/
def IsKeyText (b : Bytes) (t : Str) : Prop := ∃ hex, IsHex b hex ∧ IsMultibase58 (utf8 hex) t

/-- The key material a seed gives. -/
structure IsMethodOf (E : Env) (s : MethodSeed E) (m : VerificationMethod E) : Prop where
  ver_priv : m.verificationPairs.privKey = E.edPriv (E.edGenerate s.ed)
  ver_pub : IsKeyText (E.edPubBytes (E.edPub (E.edGenerate s.ed))) m.verificationPairs.pubKey
  agr_priv : m.agreementPairs.privKey = E.dhGenerate s.dh
  agr_pub : IsKeyText (E.dhPubBytes (E.dhPub (E.dhGenerate s.dh))) m.agreementPairs.pubKey

/-- A slot holds exactly the material of a seed, or nothing. -/
def SlotIs (E : Env) : Option (MethodSeed E) → Option (VerificationMethod E) → Prop
  | none, x => x = none
  | some s, x => ∃ m, x = some m ∧ IsMethodOf E s m

theorem keyText (b : Bytes) : IsKeyText b (multibaseEncode58 (utf8Encode (hexEncode b))) :=
  ⟨hexEncode b, hexEncode_spec b, by rw [utf8_eq]; exact multibaseEncode58_spec _⟩

theorem IsKeyText.unique {b : Bytes} {t : Str} (h : IsKeyText b t) :
    t = multibaseEncode58 (utf8Encode (hexEncode b)) := by
  obtain ⟨x, h1, h2⟩ := h
  rw [h2.unique, utf8_eq, h1.unique]

theorem isMethodOf_build {E : Env} (s : MethodSeed E) : IsMethodOf E s (Identity.buildVerificationMethod s) :=
  ⟨rfl, keyText _, rfl, keyText _⟩

theorem idRun_slots {E : Env} (ops : List (IdOp E)) (i : Identity E) :
    (ops.foldl IdOp.apply i).identity = i.identity ∧
    (ops.foldl IdOp.apply i).authentication =
      i.authentication.or ((firstAuth ops).map Identity.buildVerificationMethod) ∧
    (ops.foldl IdOp.apply i).assertion =
      i.assertion.or ((firstAssertion ops).map Identity.buildVerificationMethod) := by
  induction ops generalizing i with
  | nil => simp [firstAuth, firstAssertion]
  | cons op ops ih =>
    rw [List.foldl_cons]
    obtain ⟨h1, h2, h3⟩ := ih (op.apply i)
    rw [h1, h2, h3]
    cases op with
    | auth s =>
      simp only [IdOp.apply, Identity.buildAuthMethod, firstAuth, firstAssertion]
      cases ha : i.authentication <;> simp [ha]
    | assertion s =>
      simp only [IdOp.apply, Identity.buildAssertionMethod, firstAuth, firstAssertion]
      cases ha : i.assertion <;> simp [ha]

/-- C11: after any history each slot holds the material of its first call, and the identity text is unchanged. -/
theorem C11_first_call_wins {E : Env} (v : Str) (ops : List (IdOp E)) :
    (idRun v ops).value = v ∧
    SlotIs E (firstAuth ops) (idRun v ops).getAuthenticationMethod ∧
    SlotIs E (firstAssertion ops) (idRun v ops).getAssertionMethod := by
  obtain ⟨h1, h2, h3⟩ := idRun_slots ops (Identity.new E v)
  refine ⟨h1, ?_, ?_⟩
  · show SlotIs E _ (idRun v ops).authentication
    unfold idRun
    rw [h2]
    cases firstAuth ops with
    | none => rfl
    | some s => exact ⟨_, rfl, isMethodOf_build s⟩
  · show SlotIs E _ (idRun v ops).assertion
    unfold idRun
    rw [h3]
    cases firstAssertion ops with
    | none => rfl
    | some s => exact ⟨_, rfl, isMethodOf_build s⟩

/-- C11: calls after the first of each kind change nothing at all. -/
theorem C11_later_calls_ignored {E : Env} (v : Str) (ops : List (IdOp E)) (op : IdOp E)
    (h : match op with
      | .auth _ => firstAuth ops ≠ none
      | .assertion _ => firstAssertion ops ≠ none) :
    idRun v (ops ++ [op]) = idRun v ops := by
  obtain ⟨_, h2, h3⟩ := idRun_slots ops (Identity.new E v)
  unfold idRun
  rw [List.foldl_append]
  generalize ops.foldl IdOp.apply (Identity.new E v) = i at h2 h3
  cases op with
  | auth s =>
    simp only [List.foldl_cons, List.foldl_nil, IdOp.apply, Identity.buildAuthMethod]
    rw [if_neg]
    rw [h2]
    cases hf : firstAuth ops with
    | none => exact absurd hf h
    | some s => simp [Identity.new]
  | assertion s =>
    simp only [List.foldl_cons, List.foldl_nil, IdOp.apply, Identity.buildAssertionMethod]
    rw [if_neg]
    rw [h3]
    cases hf : firstAssertion ops with
    | none => exact absurd hf h
    | some s => simp [Identity.new]

/-- A history on the toy environment used in the examples below. -/
def toyOps : List (IdOp Toy.env) :=
  [.auth ⟨(1 : UInt8), (2 : UInt8)⟩, .assertion ⟨(3 : UInt8), (4 : UInt8)⟩, .auth ⟨(5 : UInt8), (6 : UInt8)⟩]

example : ∃ m, (idRun "did:x".toList toyOps).getAuthenticationMethod = some m ∧
    m.agreementPairs.privKey = (2 : UInt8) := by
  obtain ⟨_, ⟨m, h, hm⟩, _⟩ := C11_first_call_wins "did:x".toList toyOps
  exact ⟨m, h, hm.agr_priv⟩

/-- `C11_later_calls_ignored`: one more call of each kind. -/
example : idRun "did:x".toList (toyOps ++ [.auth ⟨(8 : UInt8), (9 : UInt8)⟩]) = idRun "did:x".toList toyOps ∧
    idRun "did:x".toList (toyOps ++ [.assertion ⟨(8 : UInt8), (9 : UInt8)⟩]) = idRun "did:x".toList toyOps :=
  ⟨C11_later_calls_ignored _ _ _ (fun h => nomatch h), C11_later_calls_ignored _ _ _ (fun h => nomatch h)⟩

/-! ### C12 -/

/-- The document entries of a slot, in terms of the published key texts. -/
structure EntriesFor (E : Env) (did idV idA : Str) (s : MethodSeed E) (l : List Primary) : Prop where
  shape : ∃ kv ka, l = [⟨did ++ idV, did, "Ed25519VerificationKey2020".toList, kv⟩,
      ⟨did ++ idA, did, "X25519KeyAgreementKey2020".toList, ka⟩] ∧
    IsKeyText (E.edPubBytes (E.edPub (E.edGenerate s.ed))) kv ∧
    IsKeyText (E.dhPubBytes (E.dhPub (E.dhGenerate s.dh))) ka

/-- A list of entries that is present exactly when the slot was built. -/
def EntriesIs (E : Env) (did idV idA : Str) : Option (MethodSeed E) → Option (List Primary) → Prop
  | none, x => x = none
  | some s, x => ∃ l, x = some l ∧ EntriesFor E did idV idA s l

theorem toDoc_fields {E : Env} (i : Identity E) :
    i.toDoc.id = i.identity ∧
    i.toDoc.context = [CONTEXT_DEFAULT, CONTEXT_ED25519, CONTEXT_X25519] ∧
    i.toDoc.capInvoke = none ∧ i.toDoc.capDelegate = none ∧
    i.toDoc.authentication = i.authentication.map (fun a =>
      [⟨i.identity ++ "#key-auth-verification".toList, i.identity, VERIFICATION_TYPE_ED25519, a.verificationPairs.pubKey⟩,
       ⟨i.identity ++ "#key-auth-aggrement".toList, i.identity, VERIFICATION_TYPE_X25519, a.agreementPairs.pubKey⟩]) ∧
    i.toDoc.assertion = i.assertion.map (fun a =>
      [⟨i.identity ++ "#key-assertion-verification".toList, i.identity, VERIFICATION_TYPE_ED25519, a.verificationPairs.pubKey⟩,
       ⟨i.identity ++ "#key-assertion-aggrement".toList, i.identity, VERIFICATION_TYPE_X25519, a.agreementPairs.pubKey⟩]) := by
  obtain ⟨v, a, s⟩ := i
  cases a <;> cases s <;> exact ⟨rfl, rfl, rfl, rfl, rfl, rfl⟩

theorem entries_ids_nodup (v : Str) :
    [v ++ "#key-auth-verification".toList, v ++ "#key-auth-aggrement".toList,
      v ++ "#key-assertion-verification".toList, v ++ "#key-assertion-aggrement".toList].Nodup := by
  have : ([("#key-auth-verification".toList : Str), "#key-auth-aggrement".toList,
      "#key-assertion-verification".toList, "#key-assertion-aggrement".toList].map (v ++ ·)).Nodup :=
    List.Nodup.map (fun _ _ h => List.append_cancel_left h) (by decide +kernel)
  exact this

/-- C12: the document of any reachable identity. -/
theorem C12_document {E : Env} (v : Str) (ops : List (IdOp E)) :
    let doc := (idRun v ops).toDoc
    doc.id = v ∧
    doc.context = ["https://www.w3.org/ns/did/v1".toList,
      "https://w3id.org/security/suites/ed25519-2020/v1".toList,
      "https://w3id.org/security/suites/x25519-2020/v1".toList] ∧
    doc.capInvoke = none ∧ doc.capDelegate = none ∧
    EntriesIs E v "#key-auth-verification".toList "#key-auth-aggrement".toList (firstAuth ops) doc.authentication ∧
    EntriesIs E v "#key-assertion-verification".toList "#key-assertion-aggrement".toList (firstAssertion ops)
      doc.assertion ∧
    ((doc.authentication.getD [] ++ doc.assertion.getD []).map Primary.id).Nodup := by
  obtain ⟨h1, h2, h3⟩ := C11_first_call_wins v ops
  obtain ⟨g1, g2, g3, g4, g5, g6⟩ := toDoc_fields (idRun v ops)
  have hv : (idRun v ops).identity = v := h1
  have h2' : SlotIs E _ (idRun v ops).authentication := h2
  have h3' : SlotIs E _ (idRun v ops).assertion := h3
  rw [hv] at g1 g5 g6
  refine ⟨g1, g2, g3, g4, ?_, ?_, ?_⟩
  · rw [g5]
    cases hf : firstAuth ops with
    | none => rw [hf] at h2'; rw [show (idRun v ops).authentication = none from h2']; rfl
    | some s =>
      rw [hf] at h2'
      obtain ⟨m, e, hm⟩ := h2'
      rw [e]
      exact ⟨_, rfl, ⟨_, _, rfl, hm.ver_pub, hm.agr_pub⟩⟩
  · rw [g6]
    cases hf : firstAssertion ops with
    | none => rw [hf] at h3'; rw [show (idRun v ops).assertion = none from h3']; rfl
    | some s =>
      rw [hf] at h3'
      obtain ⟨m, e, hm⟩ := h3'
      rw [e]
      exact ⟨_, rfl, ⟨_, _, rfl, hm.ver_pub, hm.agr_pub⟩⟩
  · rw [g5, g6]
    refine List.Nodup.sublist ?_ (entries_ids_nodup v)
    cases (idRun v ops).authentication <;> cases (idRun v ops).assertion <;> simp

example : ∃ l, (idRun "did:x".toList toyOps).toDoc.assertion = some l ∧ l.length = 2 := by
  obtain ⟨_, _, _, _, _, ⟨l, h, ⟨_, _, e, _⟩⟩, _⟩ := C12_document "did:x".toList toyOps
  exact ⟨l, h, by rw [e]; rfl⟩

/-! ### C15 -/

/-- The multibase text holds the UTF-8 bytes of a hex text of `raw`. -/
def HoldsHex (E : Env) (t : Str) (raw : Bytes) : Prop :=
  ∃ base hex, IsMultibase E base (utf8 hex) t ∧ IsHexAny raw hex

theorem decode_chain {E : Env} {α β ε : Type} (t : Str) (rd : Bytes → Option α) (ok : α → β) (e1 e2 e3 : ε) :
    ∃ res : Except ε β, (match E.mbDecode t with
      | none => Except.error e1
      | some (_, bytes) =>
        match utf8Decode bytes with
        | none => .error e2
        | some hex =>
          match (hexDecode hex).bind rd with
          | none => .error e3
          | some k => .ok (ok k)) = res ∧
      ((∃ k raw, HoldsHex E t raw ∧ rd raw = some k ∧ res = .ok (ok k)) ∨
       ((∀ k raw, HoldsHex E t raw → rd raw ≠ some k) ∧ (res = .error e1 ∨ res = .error e2 ∨ res = .error e3))) := by
  refine ⟨_, rfl, ?_⟩
  cases hm : E.mbDecode t with
  | none =>
    refine .inr ⟨?_, .inl rfl⟩
    rintro k raw ⟨base, hex, h, _⟩
    rw [mbDecode_none] at hm
    exact absurd h (hm _ _)
  | some p =>
    obtain ⟨base, bytes⟩ := p
    simp only
    cases hu : utf8Decode bytes with
    | none =>
      refine .inr ⟨?_, .inr (.inl rfl)⟩
      rintro k raw ⟨base', hex, h, _⟩
      rw [← mbDecode_iff, hm] at h
      simp only [Option.some.injEq, Prod.mk.injEq] at h
      rw [(utf8Decode_iff _ _).mpr h.2] at hu; cases hu
    | some hex =>
      have hmb := (mbDecode_iff _ _ _ _).mp hm
      rw [(utf8Decode_iff _ _).mp hu] at hmb
      simp only
      cases hx : (hexDecode hex).bind rd with
      | none =>
        refine .inr ⟨?_, .inr (.inr rfl)⟩
        rintro k raw ⟨base', hex', h, h'⟩ hr
        rw [← mbDecode_iff, hm] at h
        simp only [Option.some.injEq, Prod.mk.injEq] at h
        have := (utf8Decode_iff _ _).mpr h.2
        rw [hu] at this; cases this
        rw [(hexDecode_iff _ _).mpr h', Option.bind_some, hr] at hx; cases hx
      | some k =>
        obtain ⟨raw, h1, h2⟩ := Option.bind_eq_some_iff.mp hx
        exact .inl ⟨k, raw, ⟨base, hex, hmb, (hexDecode_iff _ _).mp h1⟩, h2, rfl⟩

theorem HoldsHex.unique {E : Env} {t : Str} {a b : Bytes} (ha : HoldsHex E t a) (hb : HoldsHex E t b) : a = b := by
  obtain ⟨b1, h1, m1, x1⟩ := ha
  obtain ⟨b2, h2, m2, x2⟩ := hb
  rw [← mbDecode_iff] at m1 m2
  rw [m1] at m2
  simp only [Option.some.injEq, Prod.mk.injEq] at m2
  have e := m2.2
  rw [utf8_eq, utf8_eq] at e
  have := utf8Encode_injective e
  subst this
  rw [← hexDecode_iff] at x1 x2
  rw [x1] at x2
  exact Option.some.inj x2

/-- C15: EdDSA keys come exactly from well-formed `Ed25519VerificationKey2020` entries. -/
theorem C15_eddsa {E : Env} (p : Primary) (k : E.EdPub) :
    p.decodePubKey E = .ok (.edDSA k) ↔
      p.verificationType = "Ed25519VerificationKey2020".toList ∧
        ∃ raw, HoldsHex E p.multibase raw ∧ E.edPubOfBytes raw = some k := by
  unfold Primary.decodePubKey VERIFICATION_TYPE_ED25519 VERIFICATION_TYPE_X25519
  split
  · rename_i ht
    obtain ⟨res, e, h⟩ := decode_chain (E := E) (ε := DIDError) p.multibase E.edPubOfBytes id
      (.decodePubKeyError "unable to decode encoded multibase to EDDSA public key".toList)
      (.decodePubKeyError "unable convert public key to string".toList)
      (.decodePubKeyError "unable to restore public key".toList)
    have e' : p.decodePubKeyVerification E = res := by
        rw [← e]
        unfold Primary.decodePubKeyVerification
        cases E.mbDecode p.multibase with
        | none => rfl
        | some q =>
          simp only
          cases utf8Decode q.2 with
          | none => rfl
          | some x =>
            simp only
            cases (hexDecode x).bind E.edPubOfBytes <;> rfl
    rw [e']
    rcases h with ⟨k', raw, h1, h2, rfl⟩ | ⟨h1, h2⟩
    · constructor
      · intro g; cases g; exact ⟨ht, raw, h1, h2⟩
      · rintro ⟨_, raw', g1, g2⟩
        rw [h1.unique g1, g2] at h2; cases h2; rfl
    · constructor
      · intro g; rcases h2 with rfl | rfl | rfl <;> cases g
      · rintro ⟨_, raw', g1, g2⟩; exact absurd g2 (h1 _ _ g1)
  · rename_i ht
    constructor
    · intro g
      split at g
      · split at g <;> cases g
      · cases g
    · rintro ⟨g, _⟩; exact absurd g ht

/-- C15: ECDH keys come exactly from well-formed `X25519KeyAgreementKey2020` entries. -/
theorem C15_ecdh {E : Env} (p : Primary) (k : E.DhPub) :
    p.decodePubKey E = .ok (.ecdh k) ↔
      p.verificationType = "X25519KeyAgreementKey2020".toList ∧
        ∃ raw, HoldsHex E p.multibase raw ∧ E.dhPubOfBytes raw = some k := by
  unfold Primary.decodePubKey VERIFICATION_TYPE_ED25519 VERIFICATION_TYPE_X25519
  split
  · rename_i ht
    constructor
    · intro g; split at g <;> cases g
    · rintro ⟨g, _⟩; rw [ht] at g; exact absurd g (by decide)
  · split
    · rename_i ht
      obtain ⟨res, e, h⟩ := decode_chain (E := E) (ε := DIDError) p.multibase E.dhPubOfBytes id
        (.decodePubKeyError "unable to decode encoded multibase to ECDH public key".toList)
        (.decodePubKeyError "unable convert public key to string".toList)
        (.decodePubKeyError "unable to restore public key".toList)
      have e' : p.decodePubKeyAgreement E = res := by
        rw [← e]
        unfold Primary.decodePubKeyAgreement
        cases E.mbDecode p.multibase with
        | none => rfl
        | some q =>
          simp only
          cases utf8Decode q.2 with
          | none => rfl
          | some x =>
            simp only
            cases (hexDecode x).bind E.dhPubOfBytes <;> rfl
      rw [e']
      rcases h with ⟨k', raw, h1, h2, rfl⟩ | ⟨h1, h2⟩
      · constructor
        · intro g; cases g; exact ⟨ht, raw, h1, h2⟩
        · rintro ⟨_, raw', g1, g2⟩
          rw [h1.unique g1, g2] at h2; cases h2; rfl
      · constructor
        · intro g; rcases h2 with rfl | rfl | rfl <;> cases g
        · rintro ⟨_, raw', g1, g2⟩; exact absurd g2 (h1 _ _ g1)
    · rename_i ht
      constructor
      · intro g; cases g
      · rintro ⟨g, _⟩; exact absurd g ht

/-- C15: every failure is a `DecodePubKeyError`; other types always fail. -/
theorem C15_errors {E : Env} (p : Primary) :
    (∀ e, p.decodePubKey E = .error e → ∃ m, e = .decodePubKeyError m) ∧
    (p.verificationType ≠ "Ed25519VerificationKey2020".toList →
      p.verificationType ≠ "X25519KeyAgreementKey2020".toList →
      p.decodePubKey E = .error (.decodePubKeyError "unknown verification type".toList)) := by
  constructor
  · intro e h
    unfold Primary.decodePubKey Primary.decodePubKeyVerification Primary.decodePubKeyAgreement at h
    repeat' split at h
    all_goals first
      | cases h; done
      | (cases h; exact ⟨_, rfl⟩)
      | (rename_i h'; repeat' split at h'
         all_goals first
          | cases h'; done
          | (cases h'; cases h; exact ⟨_, rfl⟩))
  · intro h1 h2
    unfold Primary.decodePubKey VERIFICATION_TYPE_ED25519 VERIFICATION_TYPE_X25519
    rw [if_neg h1, if_neg h2]

/-- C15: the base does not matter; the base16 spelling of the same bytes decodes to the same key. -/
theorem C15_base_irrelevant {E : Env} (p : Primary) (t : Str) (b b' : MBase) (bytes : Bytes)
    (h : IsMultibase E b bytes p.multibase) (h' : IsMultibase E b' bytes t) :
    ({ p with multibase := t } : Primary).decodePubKey E = p.decodePubKey E := by
  rw [← mbDecode_iff] at h h'
  unfold Primary.decodePubKey Primary.decodePubKeyVerification Primary.decodePubKeyAgreement
  simp only [h, h']

/-- A published key in two spellings of the same bytes, and an agreement key. -/
example : (Primary.mk [] [] "Ed25519VerificationKey2020".toList "f3037".toList).decodePubKey Toy.env =
      .ok (.edDSA (7 : UInt8)) ∧
    (Primary.mk [] [] "Ed25519VerificationKey2020".toList (multibaseEncode58 [48, 55])).decodePubKey Toy.env =
      .ok (.edDSA (7 : UInt8)) ∧
    (Primary.mk [] [] "X25519KeyAgreementKey2020".toList "f30303037".toList).decodePubKey Toy.env =
      .ok (.ecdh (7 : UInt8)) := by
  have m : IsMultibase Toy.env .base16Lower [48, 55] "f3037".toList :=
    (mbDecode_iff _ _ _ _).mp (by decide +kernel)
  have m' : IsMultibase Toy.env .base58Btc [48, 55] (multibaseEncode58 [48, 55]) :=
    (mbDecode_iff _ _ _ _).mp (by decide +kernel)
  have h : HoldsHex Toy.env "f3037".toList [7] :=
    ⟨_, "07".toList, m, (hexDecode_iff _ _).mp (by decide +kernel)⟩
  have k := (C15_eddsa (E := Toy.env) (Primary.mk [] [] "Ed25519VerificationKey2020".toList "f3037".toList)
    (7 : UInt8)).mpr ⟨rfl, [7], h, rfl⟩
  exact ⟨k, (C15_base_irrelevant _ _ _ _ _ m m').trans k, (C15_ecdh _ _).mpr ⟨rfl, [0, 7],
    ⟨.base16Lower, "0007".toList, (mbDecode_iff _ _ _ _).mp (by decide +kernel), (hexDecode_iff _ _).mp (by decide +kernel)⟩, rfl⟩⟩

/-- An entry of another type. -/
example : (Primary.mk [] [] "Other".toList "f3037".toList).decodePubKey Toy.env =
    .error (.decodePubKeyError "unknown verification type".toList) :=
  (C15_errors _).2 (by decide) (by decide)

theorem isKeyText_holds {E : Env} {b : Bytes} {t : Str} (h : IsKeyText b t) : HoldsHex E t b := by
  obtain ⟨hex, h1, h2⟩ := h
  refine ⟨.base58Btc, hex, .base58 h2, ?_⟩
  rw [← hexDecode_iff, h1.unique, hexDecode_encode]

/-! ### C13 -/

/-- C13: the published entries decode to the public keys of the private keys held in the slots. -/
theorem C13_published_keys {E : Env} (Le : E.EdLaws) (Ld : E.DhLaw) (v : Str) (ops : List (IdOp E))
    (s : MethodSeed E) (m : VerificationMethod E) (l : List Primary)
    (h : (firstAuth ops = some s ∧ (idRun v ops).getAuthenticationMethod = some m ∧
            (idRun v ops).toDoc.authentication = some l) ∨
         (firstAssertion ops = some s ∧ (idRun v ops).getAssertionMethod = some m ∧
            (idRun v ops).toDoc.assertion = some l)) :
    ∃ e1 e2, l = [e1, e2] ∧
      m.verificationPairs.privKey = E.edPriv (E.edGenerate s.ed) ∧
      e1.decodePubKey E = .ok (.edDSA (E.edPub (E.edGenerate s.ed))) ∧
      m.verificationPairs.decodePubKey = .ok (E.edPub (E.edGenerate s.ed)) ∧
      m.agreementPairs.privKey = E.dhGenerate s.dh ∧
      e2.decodePubKey E = .ok (.ecdh (E.dhPub m.agreementPairs.privKey)) ∧
      m.agreementPairs.decodePublicKey = .ok (E.dhPub m.agreementPairs.privKey) := by
  obtain ⟨_, h2, h3⟩ := C11_first_call_wins v ops
  obtain ⟨_, _, _, _, h5, h6, _⟩ := C12_document v ops
  have hm : IsMethodOf E s m := by
    rcases h with ⟨a, b, _⟩ | ⟨a, b, _⟩
    · rw [a, b] at h2
      obtain ⟨m', e, h⟩ := h2
      cases e; exact h
    · rw [a, b] at h3
      obtain ⟨m', e, h⟩ := h3
      cases e; exact h
  have hl : ∃ a b, EntriesFor E v a b s l := by
    rcases h with ⟨a, _, b⟩ | ⟨a, _, b⟩
    · rw [a, b] at h5
      obtain ⟨m', e, h⟩ := h5
      cases e; exact ⟨_, _, h⟩
    · rw [a, b] at h6
      obtain ⟨m', e, h⟩ := h6
      cases e; exact ⟨_, _, h⟩
  obtain ⟨a, b, ⟨kv, ka, hl, k1, k2⟩⟩ := hl
  have d1 : m.verificationPairs.decodePubKey = .ok (E.edPub (E.edGenerate s.ed)) := by
    unfold Verification.Pairs.decodePubKey Env.mbDecode
    rw [hm.ver_pub.unique]
    simp [utf8Decode_encode, hexDecode_encode, Le.pub_bytes]
  have d2 : m.agreementPairs.decodePublicKey = .ok (E.dhPub m.agreementPairs.privKey) := by
    unfold Agreement.Pairs.decodePublicKey Env.mbDecode
    rw [hm.agr_pub.unique, hm.agr_priv]
    simp [utf8Decode_encode, hexDecode_encode, Ld _]
  refine ⟨_, _, hl, hm.ver_priv, ?_, d1, hm.agr_priv, ?_, d2⟩
  · exact (C15_eddsa _ _).mpr ⟨rfl, _, isKeyText_holds k1, Le.pub_bytes _⟩
  · rw [hm.agr_priv]
    exact (C15_ecdh _ _).mpr ⟨rfl, _, isKeyText_holds k2, Ld _⟩

/-- `C13_published_keys`: its hypothesis holds of the sample history. -/
example : ∃ m l, (idRun "did:x".toList toyOps).getAuthenticationMethod = some m ∧
    (idRun "did:x".toList toyOps).toDoc.authentication = some l ∧ firstAuth toyOps = some ⟨(1 : UInt8), (2 : UInt8)⟩ :=
  ⟨_, _, rfl, rfl, rfl⟩

/-! ### C14 -/

theorem export_decrypt {E : Env} (A : E.AeadLaw) {r : ExportRandom} {plain : Bytes} {pw : Str} {ks : KeySecure}
    (h : exportKeySecure E r plain pw = .ok ks) : ks.decrypt E pw = .ok plain := by
  unfold exportKeySecure at h
  simp only [bind, Except.bind] at h
  cases hk : E.kdf E.kdfDefault pw (utf8Encode r.salt) with
  | error m => rw [hk] at h; cases h
  | ok k =>
    rw [hk] at h
    simp only at h
    cases hc : E.aeadEnc k r.nonce plain with
    | error m => rw [hc] at h; cases h
    | ok c =>
      rw [hc] at h; cases h
      unfold KeySecure.decrypt
      simp only [hexDecode_encode, hk, bind, Except.bind]
      rw [if_neg (by have := r.nonce_len; omega)]
      exact A _ _ _ _ hc

/-- What an exported slot decrypts to: the PEM text of the verification key, the hex text of the agreement
secret. -/
def SlotDecrypts (E : Env) (pw : Str) : Option (MethodSeed E) → Option PrivateKeyPairs → Prop
  | none, x => x = none
  | some s, x => ∃ p pem hex, x = some p ∧
      E.edPem (E.edPriv (E.edGenerate s.ed)) = .ok pem ∧ IsHex (E.dhSecret (E.dhGenerate s.dh)) hex ∧
      p.decryptVerification E pw = .ok (utf8 pem) ∧ p.decryptAgreement E pw = .ok (utf8 hex)

theorem buildSlot_ok {E : Env} (A : E.AeadLaw) {rv ra : ExportRandom} {pw : Str}
    {x : Option (VerificationMethod E)} {y : Option PrivateKeyPairs} (h : Identity.buildSlot rv ra pw x = .ok y)
    {s : Option (MethodSeed E)} (hs : SlotIs E s x) : SlotDecrypts E pw s y := by
  cases s with
  | none =>
    rw [show x = none from hs] at h
    cases h; rfl
  | some s =>
    obtain ⟨m, e, hm⟩ := hs
    subst e
    unfold Identity.buildSlot at h
    simp only at h
    cases hv : m.verificationPairs.buildKeysecure rv pw with
    | error e => rw [hv] at h; cases h
    | ok kv =>
      rw [hv] at h
      simp only at h
      cases ha : m.agreementPairs.buildKeysecure ra pw with
      | error e => rw [ha] at h; cases h
      | ok ka =>
        rw [ha] at h; cases h
        unfold Verification.Pairs.buildKeysecure at hv
        rw [hm.ver_priv] at hv
        cases hp : E.edPem (E.edPriv (E.edGenerate s.ed)) with
        | error e => rw [hp] at hv; cases hv
        | ok pem =>
          rw [hp] at hv
          simp only at hv
          unfold Agreement.Pairs.buildKeysecure at ha
          rw [hm.agr_priv] at ha
          cases hx : exportKeySecure E rv (utf8Encode pem) pw with
          | error e => rw [hx] at hv; cases hv
          | ok kv' =>
            rw [hx] at hv; cases hv
            cases hy : exportKeySecure E ra (utf8Encode (hexEncode (E.dhSecret (E.dhGenerate s.dh)))) pw with
            | error e => rw [hy] at ha; cases ha
            | ok ka' =>
              rw [hy] at ha; cases ha
              refine ⟨_, pem, _, rfl, hp, hexEncode_spec _, ?_, ?_⟩
              · unfold PrivateKeyPairs.decryptVerification
                simp only [export_decrypt A hx, utf8_eq]
              · unfold PrivateKeyPairs.decryptAgreement
                simp only [export_decrypt A hy, utf8_eq]

/-- C14: exported private keys of any reachable identity. Together with C12/C13 (same seeds) the decrypted keys
are those of the published public keys. -/
theorem C14_private_keys {E : Env} (A : E.AeadLaw) (v : Str) (ops : List (IdOp E)) (r : PrivateKeysRandom)
    (pw : Str) (out : IdentityPrivateKeyPairs) (h : (idRun v ops).buildPrivateKeys r pw = .ok out) :
    out.identity = v ∧ SlotDecrypts E pw (firstAuth ops) out.authentication ∧
      SlotDecrypts E pw (firstAssertion ops) out.assertion := by
  obtain ⟨h1, h2, h3⟩ := C11_first_call_wins v ops
  unfold Identity.buildPrivateKeys at h
  cases ha : Identity.buildSlot r.authVerification r.authAgreement pw (idRun v ops).authentication with
  | error e => rw [ha] at h; cases h
  | ok a =>
    rw [ha] at h
    simp only at h
    cases hb : Identity.buildSlot r.assertionVerification r.assertionAgreement pw (idRun v ops).assertion with
    | error e => rw [hb] at h; cases h
    | ok b =>
      rw [hb] at h; cases h
      exact ⟨h1, buildSlot_ok A ha h2, buildSlot_ok A hb h3⟩

/-- C14: the only failure is `BuildIdentityPrivateKeysError`. -/
theorem C14_error_class {E : Env} (i : Identity E) (r : PrivateKeysRandom) (pw : Str) (e : KeySecureError)
    (h : i.buildPrivateKeys r pw = .error e) : e = .buildIdentityPrivateKeysError := by
  have slot : ∀ (rv ra : ExportRandom) x e, Identity.buildSlot (E := E) rv ra pw x = .error e →
      e = .buildIdentityPrivateKeysError := by
    intro rv ra x e h
    cases x with
    | none => cases h
    | some m =>
      simp only [Identity.buildSlot] at h
      split at h
      · cases h; rfl
      · split at h
        · cases h; rfl
        · cases h
  unfold Identity.buildPrivateKeys at h
  split at h
  · rename_i h'; cases h; exact slot _ _ _ _ h'
  · split at h
    · rename_i h'; cases h; exact slot _ _ _ _ h'
    · cases h

/-- C14: the exported verification record restores the published key as an account (PEM law). -/
theorem C14_restores_account {E : Env} (P : E.PemLaw) (A : E.AeadLaw) (v : Str) (ops : List (IdOp E))
    (r : PrivateKeysRandom) (pw : Str) (out : IdentityPrivateKeyPairs)
    (h : (idRun v ops).buildPrivateKeys r pw = .ok out) (s : MethodSeed E) (hs : firstAuth ops = some s) :
    ∃ p pem, out.authentication = some p ∧ p.decryptVerification E pw = .ok (utf8 pem) ∧
      E.edOfPem pem = .ok (E.edGenerate s.ed) := by
  obtain ⟨_, h2, _⟩ := C14_private_keys A v ops r pw out h
  rw [hs] at h2
  obtain ⟨p, pem, hex, h1, h2, _, h3, _⟩ := h2
  exact ⟨p, pem, h1, h3, P _ _ h2⟩

/-- Randomness for the examples. -/
def toyRandom : ExportRandom := ⟨"salt".toList, List.replicate 24 5, rfl⟩

/-- `C14_private_keys`, `C14_restores_account`: the export of the sample history, and the key restored from it. -/
example : ∃ out p pem, (idRun "did:x".toList toyOps).buildPrivateKeys ⟨toyRandom, toyRandom, toyRandom, toyRandom⟩
    "pw".toList = .ok out ∧ out.authentication = some p ∧ p.decryptVerification Toy.env "pw".toList = .ok (utf8 pem) ∧
    Toy.env.edOfPem pem = .ok (1 : UInt8) := by
  obtain ⟨p, pem, h1, h2, h3⟩ := C14_restores_account Toy.pemLaw Toy.aeadLaw "did:x".toList toyOps
    ⟨toyRandom, toyRandom, toyRandom, toyRandom⟩ "pw".toList _ rfl ⟨(1 : UInt8), (2 : UInt8)⟩ rfl
  exact ⟨_, p, pem, rfl, h1, h2, h3⟩

/-- `C14_error_class`: an export where no key is derived. -/
example : ∃ e, (idRun (E := { Toy.env with kdf := fun _ _ _ => .error [] }) "did:x".toList
    [.auth ⟨(1 : UInt8), (2 : UInt8)⟩]).buildPrivateKeys ⟨toyRandom, toyRandom, toyRandom, toyRandom⟩ "pw".toList = .error e := ⟨_, rfl⟩

/-! ### C19 -/

/-- C19 (what holds): an accepted pair has a public key text or a private key text; a pair with both is accepted.
Missing: acceptance does not imply that the public key text is present, see `C19_is_valid_counterexample`. -/
theorem C19_is_valid_partial {E : Env} (p : Verification.Pairs E) (a : Agreement.Pairs E) :
    (p.isValid = true ↔ ∃ pem, E.edPem p.privKey = .ok pem ∧ (p.pubKey ≠ [] ∨ pem ≠ [])) ∧
    (a.isValid = true ↔ (a.pubKey ≠ [] ∨ E.dhSecret a.privKey ≠ [])) := by
  constructor
  · unfold Verification.Pairs.isValid
    cases E.edPem p.privKey with
    | error e => simp
    | ok pem => cases p.pubKey <;> cases pem <;> simp
  · unfold Agreement.Pairs.isValid
    cases a.pubKey with
    | cons c r => simp
    | nil =>
      cases E.dhSecret a.privKey with
      | nil => simp [hexEncode]
      | cons x b => simp [hexEncode_cons]

/-- C19: the intended meaning fails for every private key that can be exported to a non-empty text: a pair without
any public key text is accepted. -/
theorem C19_is_valid_counterexample {E : Env} :
    (∀ k pem, E.edPem k = .ok pem → pem ≠ [] → (Verification.Pairs.mk (E := E) [] k).isValid = true) ∧
    (∀ k, E.dhSecret k ≠ [] → (Agreement.Pairs.mk (E := E) [] k).isValid = true) := by
  constructor
  · intro k pem h hne
    simp only [Verification.Pairs.isValid, h]
    cases pem with
    | nil => exact absurd rfl hne
    | cons x b => rfl
  · intro k h
    simp only [Agreement.Pairs.isValid]
    cases hk : E.dhSecret k with
    | nil => exact absurd hk h
    | cons x b => simp [hexEncode_cons]

example : (Verification.Pairs.mk (E := Toy.env) [] (3 : UInt8)).isValid = true := rfl
example : (Agreement.Pairs.mk (E := Toy.env) [] (3 : UInt8)).isValid = true := rfl

end Verif.Props
