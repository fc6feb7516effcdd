import Verif.Props.Accept
import Verif.Props.Replay
import Verif.Props.Padding

/-
C73: the bytes signed by core/src/verifiable/proof/{config,eddsa}.rs against those of the W3C Recommendation
"Data Integrity EdDSA Cryptosuites v1.0", section 3.3 (eddsa-jcs-2022).

The claim that both are the same does not hold of the code: `Proof` is serialised with an empty `proofValue`
(core/src/verifiable/proof/mod.rs:45-46, 125-128), where the Recommendation removes the member, and without the
`@context` of the document.
-/

namespace Verif.Spec
open Verif

/-- Section 3.3.5 of the Recommendation: the proof configuration made from the members of a proof. A signer that
follows the Recommendation puts in the `@context` of the document; `value` is `none`, there is no member
`proofValue`. -/
def config {N : Type} (ctx : Option (List Str)) (value : Option Str) (p : Proof) : Json N :=
  object [("@context", ctx.map strings), ("id", some (.str p.id)), ("type", some (.str p.typ)),
    ("proofPurpose", some (.str (purposeText p.proofPurpose).toList)), ("proofValue", value.map .str),
    ("verificationMethod", some (.str p.verificationMethod)), ("created", p.created.map .str),
    ("expires", p.expires.map .str), ("cryptosuite", p.cryptosuite.map .str)]

/-- Its bytes. -/
def configBytes (E : Env) (ctx : Option (List Str)) (value : Option Str) (p : Proof) : Bytes :=
  utf8 (canonicalText E (config ctx value p))

/-- Sections 3.3.2, 3.3.4, 3.3.7 of the Recommendation: `p` is a proof of the document with these canonical bytes. -/
def W3CVerifies (E : Env) (pub : E.EdPub) (ctx : Option (List Str)) (p : Proof) (doc : Bytes) : Prop :=
  ∃ sig hex, IsMultibase58 sig p.proofValue ∧ IsHex sig hex ∧
    E.edVerify pub (E.sha256 (configBytes E ctx none p) ++ E.sha256 doc) hex = .ok true

end Verif.Spec

namespace Verif.Props
open Verif Spec

theorem config_distinct {N : Type} (ctx : Option (List Str)) (value : Option Str) (p : Proof) :
    DistinctKeys (config ctx value p : Json N) := by
  obtain ⟨i, t, pp, pv, m, c, e, s⟩ := p
  cases ctx <;> cases value <;> cases c <;> cases e <;> cases s <;>
    simp [config, object, DistinctKeys, DistinctKeysMembers, strings_distinct]

theorem optionBytes_config (E : Env) (p : Proof) : optionBytes E p = configBytes E none (some p.proofValue) p := rfl

/-- C73: the configuration this library hashes is never one of the Recommendation, whatever the proofs. -/
theorem C73_config {E : Env} (L : E.JcsLaws) (ctx : Option (List Str)) (p q : Proof) :
    optionBytes E p ≠ configBytes E ctx none q := by
  intro h
  rw [optionBytes_config] at h
  have := object_at (canonTree_of_bytes L (config_distinct ..) (config_distinct ..) h) (by simp) (by simp) 4 rfl rfl
  simp at this

/-- C73 (credentials): a credential signed by this library is accepted under the Recommendation, by whatever key, only
if the cryptography is broken. -/
theorem C73_sent_vc {E : Env} (H : E.HashLaws) (L : E.JcsLaws) (kp : E.EdKP) (v : VC E) (opts : Proof) (out : VC E)
    (hs : sign E (VC E) kp v opts = .ok out) (pub : E.EdPub) (ctx : Option (List Str)) (p : Proof)
    (hp : out.proof = some p) (w : VC E) (h : W3CVerifies E pub ctx p (vcBytes w)) :
    ∃ sig, IsMultibase58 sig p.proofValue ∧
      Broken E kp pub sig (optionBytes E opts) (vcBytes v) (configBytes E ctx none p) (vcBytes w) := by
  obtain ⟨_, _, _, text, ht, rfl⟩ := ((C32_vc L kp v opts).1 out).mp hs
  cases hp
  obtain ⟨sig, hex, h1, h2, h3⟩ := h
  have e := isMultibase_bytes (E := E) (.base58 ht) (.base58 h1)
  refine ⟨sig, h1, ?_⟩
  rcases same_or_broken H e.symm h2 h3 with ⟨h4, _⟩ | h4
  · exact absurd h4 (C73_config L _ _ _)
  · exact h4

/-- C73 (presentations). -/
theorem C73_sent_vp {E : Env} (H : E.HashLaws) (L : E.JcsLaws) (kp : E.EdKP) (v : VP E) (opts : Proof) (out : VP E)
    (hs : sign E (VP E) kp v opts = .ok out) (pub : E.EdPub) (ctx : Option (List Str)) (p : Proof)
    (hp : out.proof = some p) (w : VP E) (h : W3CVerifies E pub ctx p (vpBytes w)) :
    ∃ sig, IsMultibase58 sig p.proofValue ∧
      Broken E kp pub sig (optionBytes E opts) (vpBytes v) (configBytes E ctx none p) (vpBytes w) := by
  obtain ⟨_, _, _, text, ht, rfl⟩ := ((C32_vp L kp v opts).1 out).mp hs
  cases hp
  obtain ⟨sig, hex, h1, h2, h3⟩ := h
  have e := isMultibase_bytes (E := E) (.base58 ht) (.base58 h1)
  refine ⟨sig, h1, ?_⟩
  rcases same_or_broken H e.symm h2 h3 with ⟨h4, _⟩ | h4
  · exact absurd h4 (C73_config L _ _ _)
  · exact h4

/-- C73 (credentials): what this library accepts was not signed as the Recommendation says, with any configuration and
any document bytes, unless the cryptography is broken. -/
theorem C73_received_vc {E : Env} (H : E.HashLaws) (L : E.JcsLaws) (kp : E.EdKP) (ctx : Option (List Str)) (q : Proof)
    (doc : Bytes) (pub : E.EdPub) (bs : Bytes) (purpose : ProofPurpose) (v : VC E) (p : Proof)
    (ha : AcceptedVC pub bs purpose v) (hp : v.proof = some p)
    (hs : ∃ base, IsMultibase E base (E.edSign kp (E.sha256 (configBytes E ctx none q) ++ E.sha256 doc)) p.proofValue) :
    Broken E kp pub (E.edSign kp (E.sha256 (configBytes E ctx none q) ++ E.sha256 doc)) (configBytes E ctx none q) doc
      (optionBytes E (unvalued p)) (vcBytes (unsignedVC v)) := by
  obtain ⟨hb, r, hr, hok⟩ := ha
  obtain ⟨v', p', a1, a2, _, _, _, _, ⟨base, sig, hex, a3, a4, a5⟩, _⟩ := (C33_vc L pub bs purpose r).mp ⟨hr, hok⟩
  rw [hb] at a1; cases a1
  rw [hp] at a2; cases a2
  obtain ⟨base', hs⟩ := hs
  have e := isMultibase_bytes a3 hs
  rw [← e]
  rcases same_or_broken H e a4 a5 with ⟨h4, _⟩ | h4
  · exact absurd h4.symm (C73_config L _ _ _)
  · exact h4

/-- C73 (presentations). -/
theorem C73_received_vp {E : Env} (H : E.HashLaws) (L : E.JcsLaws) (kp : E.EdKP) (ctx : Option (List Str)) (q : Proof)
    (doc : Bytes) (pub : E.EdPub) (bs : Bytes) (purpose : ProofPurpose) (v : VP E) (p : Proof)
    (ha : AcceptedVP pub bs purpose v) (hp : v.proof = some p)
    (hs : ∃ base, IsMultibase E base (E.edSign kp (E.sha256 (configBytes E ctx none q) ++ E.sha256 doc)) p.proofValue) :
    Broken E kp pub (E.edSign kp (E.sha256 (configBytes E ctx none q) ++ E.sha256 doc)) (configBytes E ctx none q) doc
      (optionBytes E (unvalued p)) (vpBytes (unsignedVP v)) := by
  obtain ⟨hb, r, hr, hok⟩ := ha
  obtain ⟨v', p', a1, a2, _, _, _, _, ⟨base, sig, hex, a3, a4, a5⟩, _⟩ := (C33_vp L pub bs purpose r).mp ⟨hr, hok⟩
  rw [hb] at a1; cases a1
  rw [hp] at a2; cases a2
  obtain ⟨base', hs⟩ := hs
  have e := isMultibase_bytes a3 hs
  rw [← e]
  rcases same_or_broken H e a4 a5 with ⟨h4, _⟩ | h4
  · exact absurd h4.symm (C73_config L _ _ _)
  · exact h4

/-- The full claim of C73 for credentials: what this library signs with fresh options is a proof by the
Recommendation, with or without the context. -/
def C73_full (E : Env) : Prop :=
  ∀ (kp : E.EdKP) (v : VC E) (opts : Proof) (out : VC E) (p : Proof), opts.proofValue = [] → v.proof = none →
    sign E (VC E) kp v opts = .ok out → out.proof = some p →
    W3CVerifies E (E.edPub kp) none p (vcBytes v) ∨ W3CVerifies E (E.edPub kp) (some v.contexts) p (vcBytes v)

/-- C73, what holds (credentials): the signed message is built as the Recommendation says from the hash of the
configuration and the hash of the canonical document without proof, and the configuration is that of the
Recommendation, except that it has an empty member `proofValue` and no `@context`. -/
theorem C73_vc_partial {E : Env} (L : E.JcsLaws) (kp : E.EdKP) (v : VC E) (opts : Proof) (out : VC E)
    (hf : opts.proofValue = []) (hs : sign E (VC E) kp v opts = .ok out) :
    ∃ p, out.proof = some p ∧ IsMultibase58
      (E.edSign kp (E.sha256 (configBytes E none (some []) p) ++ E.sha256 (vcBytes v))) p.proofValue := by
  obtain ⟨_, _, _, text, ht, rfl⟩ := ((C32_vc L kp v opts).1 out).mp hs
  refine ⟨_, rfl, ?_⟩
  rw [optionBytes_config, hf] at ht
  exact ht

/-- C73, what holds (presentations). -/
theorem C73_vp_partial {E : Env} (L : E.JcsLaws) (kp : E.EdKP) (v : VP E) (opts : Proof) (out : VP E)
    (hf : opts.proofValue = []) (hs : sign E (VP E) kp v opts = .ok out) :
    ∃ p, out.proof = some p ∧ IsMultibase58
      (E.edSign kp (E.sha256 (configBytes E none (some []) p) ++ E.sha256 (vpBytes v))) p.proofValue := by
  obtain ⟨_, _, _, text, ht, rfl⟩ := ((C32_vp L kp v opts).1 out).mp hs
  refine ⟨_, rfl, ?_⟩
  rw [optionBytes_config, hf] at ht
  exact ht

/-- The full claim fails in a world that meets every assumption. -/
theorem C73_full_false : ∃ E : Env, E.HashLaws ∧ E.JcsLaws ∧ E.NumLaws ∧ E.EdLaws ∧ ¬ C73_full E := by
  refine ⟨Toy.env, Toy.hashLaws, Toy.jcsLaws, Toy.numLaws, Toy.edLaws, ?_⟩
  intro h
  obtain ⟨s, p, _, _, _, h1, h2, _⟩ := toy_signed_vc
  have hw := h (7 : UInt8) toyVC toyProof s p rfl rfl h1 h2
  obtain ⟨_, _, _, text, ht, rfl⟩ := ((C32_vc Toy.jcsLaws (7 : UInt8) toyVC toyProof).1 s).mp h1
  cases h2
  have no (ctx : Option (List Str))
      (hne : Toy.env.sha256 (optionBytes Toy.env toyProof) ≠ Toy.env.sha256 (configBytes Toy.env ctx none toyProof))
      (hw : W3CVerifies Toy.env (7 : UInt8) ctx { toyProof with proofValue := text } (vcBytes toyVC)) : False := by
    obtain ⟨sig, hex, h1, h2, h3⟩ := hw
    have e := isMultibase_bytes (E := Toy.env) (.base58 ht) (.base58 h1)
    have e2 : sig = (7 : UInt8) :: _ := toy_verify_true h2 h3
    rw [← e] at e2
    have e3 : message Toy.env (optionBytes Toy.env toyProof) (vcBytes toyVC) =
      message Toy.env (configBytes Toy.env ctx none toyProof) (vcBytes toyVC) := (List.cons.inj e2).2
    exact hne (C47_separated Toy.hashLaws _ _ _ _ e3).1
  rcases hw with hw | hw
  · exact no _ (by decide +kernel) hw
  · exact no _ (by decide +kernel) hw

theorem weakVC_complete : VCComplete weakVC := ⟨by simp [weakVC], by simp [weakVC], by simp [weakVC]⟩

def weakPlainVP : VP Toy.weak := ⟨["c".toList], ["t".toList], [weakVC], none, none⟩

theorem weakPlainVP_complete : VPComplete weakPlainVP := ⟨by simp [weakPlainVP], by simp [weakPlainVP], by simp [weakPlainVP]⟩

/-- The hypotheses of `C73_sent_vc`, `C73_sent_vp`, `C73_vc_partial` and `C73_vp_partial` are met, in a world with a
broken signature scheme. -/
example : (∃ (out : VC Toy.weak) (p : Proof), toyProof.proofValue = [] ∧
      sign Toy.weak (VC Toy.weak) (7 : UInt8) weakVC toyProof = .ok out ∧ out.proof = some p ∧
      W3CVerifies Toy.weak (7 : UInt8) none p (vcBytes weakVC)) ∧
    ∃ (out : VP Toy.weak) (p : Proof), sign Toy.weak (VP Toy.weak) (7 : UInt8) weakPlainVP toyProof = .ok out ∧
      out.proof = some p ∧ W3CVerifies Toy.weak (7 : UInt8) none p (vpBytes weakPlainVP) := by
  refine ⟨⟨_, _, rfl, ((C32_vc Toy.weak_jcsLaws (7 : UInt8) weakVC toyProof).1 _).mpr
    ⟨⟨toyProof_good.type, toyProof_good.suite, toyProof_good.created⟩, by decide, weakVC_complete,
      _, multibaseEncode58_spec _, rfl⟩, rfl, _, _, multibaseEncode58_spec _, hexEncode_spec _, rfl⟩,
    _, _, ((C32_vp Toy.weak_jcsLaws (7 : UInt8) weakPlainVP toyProof).1 _).mpr
    ⟨⟨toyProof_good.type, toyProof_good.suite, toyProof_good.created⟩, by decide, weakPlainVP_complete,
      _, multibaseEncode58_spec _, rfl⟩, rfl, _, _, multibaseEncode58_spec _, hexEncode_spec _, rfl⟩

/-- The hypotheses of `C73_received_vc` and `C73_received_vp` are met there too. -/
example (sig : Bytes) (text : Str) (ht : IsMultibase58 sig text) :
    (∃ bs, AcceptedVC (E := Toy.weak) (7 : UInt8) bs .assertionMethod
      { weakVC with proof := some { toyProof with proofValue := text } }) ∧
    ∃ bs, AcceptedVP (E := Toy.weak) (7 : UInt8) bs .assertionMethod
      { weakPlainVP with proof := some { toyProof with proofValue := text } } := by
  obtain ⟨t, _, h2⟩ := C26_json_roundtrip Toy.weak_numLaws { weakVC with proof := some { toyProof with proofValue := text } }
    (show VCComplete _ from weakVC_complete)
    (by simp [weakVC, Survives, Json.nums]) (by simp [weakVC, Json.depth])
  obtain ⟨t', _, h2'⟩ := C27_json_roundtrip Toy.weak_numLaws { weakPlainVP with proof := some { toyProof with proofValue := text } }
    (show VPComplete _ from weakPlainVP_complete)
    (by simp [weakPlainVP, weakVC, Survives, Json.nums]) (by simp [weakPlainVP, weakVC, Json.depth])
  have h5 := (C33_vc Toy.weak_jcsLaws (7 : UInt8) t.toBytes .assertionMethod ⟨true, some weakVC⟩).mpr
    ⟨_, _, h2, rfl, ⟨toyProof_good.1, toyProof_good.2, toyProof_good.3⟩, rfl, by decide,
      (show VCComplete _ from weakVC_complete), ⟨_, _, _, .base58 ht, hexEncode_spec _, rfl⟩, rfl⟩
  have h5' := (C33_vp Toy.weak_jcsLaws (7 : UInt8) t'.toBytes .assertionMethod ⟨true, some weakPlainVP⟩).mpr
    ⟨_, _, h2', rfl, ⟨toyProof_good.1, toyProof_good.2, toyProof_good.3⟩, rfl, by decide,
      (show VPComplete _ from weakPlainVP_complete), ⟨_, _, _, .base58 ht, hexEncode_spec _, rfl⟩, rfl⟩
  exact ⟨⟨_, h2, _, h5⟩, _, h2', _, h5'⟩

end Verif.Props
