import Verif.Props.Chain
import Verif.Props.Json

/-
C57, C58: accepted documents that share a signature; acceptance stated on the bytes received.
-/

namespace Verif.Props
open Verif Spec

/-! ### C57 -/

/-- How one signature can be accepted for two different pairs of options `o` and document `d`. -/
inductive Conflict (E : Env) (pub : E.EdPub) (sig : Bytes) (o d o' d' : Bytes) : Prop where
  /-- SHA-256 collides on the two option texts -/
  | options (hne : o ≠ o') (h : E.sha256 o = E.sha256 o')
  /-- SHA-256 collides on the two document texts -/
  | document (hne : d ≠ d') (h : E.sha256 d = E.sha256 d')
  /-- the key accepts the signature for two messages -/
  | signature (hne : E.sha256 o ++ E.sha256 d ≠ E.sha256 o' ++ E.sha256 d') (hex : Str) (hs : IsHex sig hex)
      (h : E.edVerify pub (E.sha256 o ++ E.sha256 d) hex = .ok true)
      (h' : E.edVerify pub (E.sha256 o' ++ E.sha256 d') hex = .ok true)

theorem same_or_conflict {E : Env} (H : E.HashLaws) {pub : E.EdPub} {sig o d o' d' : Bytes} {hex hex' : Str}
    (hs : IsHex sig hex) (hs' : IsHex sig hex') (h : E.edVerify pub (message E o d) hex = .ok true)
    (h' : E.edVerify pub (message E o' d') hex' = .ok true) : (o = o' ∧ d = d') ∨ Conflict E pub sig o d o' d' := by
  have e : hex' = hex := hs'.unique.trans hs.unique.symm
  subst e
  by_cases hm : message E o d = message E o' d'
  · obtain ⟨h1, h2⟩ := C47_separated H _ _ _ _ hm
    by_cases ho : o = o'
    · by_cases hd : d = d'
      · exact .inl ⟨ho, hd⟩
      · exact .inr (.document hd h2)
    · exact .inr (.options ho h1)
  · exact .inr (.signature hm hex' hs h h')

/-- C57 (credentials): two accepted texts carrying the same signature bytes, whoever made them, hold the same
credential and options, up to number spelling in the subject and the multibase spelling of the signature. -/
theorem C57_vc {E : Env} (H : E.HashLaws) (L : E.JcsLaws) (pub : E.EdPub) (bs bs' : Bytes)
    (purpose purpose' : ProofPurpose) (v w : VC E) (q q' : Proof) (sig : Bytes) (base base' : MBase)
    (ha : AcceptedVC pub bs purpose v) (hw : AcceptedVC pub bs' purpose' w) (hq : v.proof = some q)
    (hq' : w.proof = some q') (hsig : IsMultibase E base sig q.proofValue)
    (hsig' : IsMultibase E base' sig q'.proofValue) :
    (SameVC (unsignedVC v) (unsignedVC w) ∧ unvalued q = unvalued q' ∧ purpose = purpose') ∨
    Conflict E pub sig (optionBytes E (unvalued q)) (vcBytes (unsignedVC v)) (optionBytes E (unvalued q'))
      (vcBytes (unsignedVC w)) := by
  obtain ⟨hv1, r, hr, hok⟩ := ha
  obtain ⟨hw1, r', hr', hok'⟩ := hw
  obtain ⟨v', p, a1, a2, _, ap, _, ac, ⟨_, _, hex, a4, a5, a6⟩, _⟩ := (C33_vc L pub bs purpose r).mp ⟨hr, hok⟩
  obtain ⟨w', p', b1, b2, _, bp, _, bc, ⟨_, _, hex', b4, b5, b6⟩, _⟩ := (C33_vc L pub bs' purpose' r').mp ⟨hr', hok'⟩
  rw [hv1] at a1; cases a1
  rw [hw1] at b1; cases b1
  rw [hq] at a2; cases a2
  rw [hq'] at b2; cases b2
  cases isMultibase_bytes hsig a4
  cases isMultibase_bytes hsig' b4
  rcases same_or_conflict H a5 b5 a6 b6 with ⟨h1, h2⟩ | h
  · have e := optionBytes_inj L h1
    refine .inl ⟨vcBytes_same L ac bc h2, e, ?_⟩
    rw [← ap, ← bp]
    have e' : (unvalued q).proofPurpose = (unvalued q').proofPurpose := by rw [e]
    exact e'
  · exact .inr h

/-- C57 (presentations). -/
theorem C57_vp {E : Env} (H : E.HashLaws) (L : E.JcsLaws) (pub : E.EdPub) (bs bs' : Bytes)
    (purpose purpose' : ProofPurpose) (v w : VP E) (q q' : Proof) (sig : Bytes) (base base' : MBase)
    (ha : AcceptedVP pub bs purpose v) (hw : AcceptedVP pub bs' purpose' w) (hq : v.proof = some q)
    (hq' : w.proof = some q') (hsig : IsMultibase E base sig q.proofValue)
    (hsig' : IsMultibase E base' sig q'.proofValue) :
    (SameVP (unsignedVP v) (unsignedVP w) ∧ unvalued q = unvalued q' ∧ purpose = purpose') ∨
    Conflict E pub sig (optionBytes E (unvalued q)) (vpBytes (unsignedVP v)) (optionBytes E (unvalued q'))
      (vpBytes (unsignedVP w)) := by
  obtain ⟨hv1, r, hr, hok⟩ := ha
  obtain ⟨hw1, r', hr', hok'⟩ := hw
  obtain ⟨v', p, a1, a2, _, ap, _, ac, ⟨_, _, hex, a4, a5, a6⟩, _⟩ := (C33_vp L pub bs purpose r).mp ⟨hr, hok⟩
  obtain ⟨w', p', b1, b2, _, bp, _, bc, ⟨_, _, hex', b4, b5, b6⟩, _⟩ := (C33_vp L pub bs' purpose' r').mp ⟨hr', hok'⟩
  rw [hv1] at a1; cases a1
  rw [hw1] at b1; cases b1
  rw [hq] at a2; cases a2
  rw [hq'] at b2; cases b2
  cases isMultibase_bytes hsig a4
  cases isMultibase_bytes hsig' b4
  rcases same_or_conflict H a5 b5 a6 b6 with ⟨h1, h2⟩ | h
  · have e := optionBytes_inj L h1
    refine .inl ⟨vpBytes_same L ac bc h2, e, ?_⟩
    rw [← ap, ← bp]
    have e' : (unvalued q).proofPurpose = (unvalued q').proofPurpose := by rw [e]
    exact e'
  · exact .inr h

/-- The hypotheses of `C57_vc` are met by two spellings of one signature. -/
example : ∃ (bs bs' : Bytes) (v w : VC Toy.env) (q q' : Proof) (sig : Bytes),
    AcceptedVC (E := Toy.env) (7 : UInt8) bs .assertionMethod v ∧ AcceptedVC (E := Toy.env) (7 : UInt8) bs' .assertionMethod w ∧
    v.proof = some q ∧ w.proof = some q' ∧ q ≠ q' ∧ IsMultibase Toy.env .base58Btc sig q.proofValue ∧
    IsMultibase Toy.env .base16Lower sig q'.proofValue := by
  obtain ⟨t, h1, h2⟩ := accepted_vc Toy.jcsLaws Toy.numLaws Toy.edLaws (7 : UInt8) toyVC toyProof toyVC_complete
    (Toy.survives _) (by simp [toyVC, toySubject, Json.depth, Json.depthMembers]) toyProof_good (by decide) .base58Btc _
    (.base58 (multibaseEncode58_spec _))
  obtain ⟨t', h3, h4⟩ := accepted_vc Toy.jcsLaws Toy.numLaws Toy.edLaws (7 : UInt8) toyVC toyProof toyVC_complete
    (Toy.survives _) (by simp [toyVC, toySubject, Json.depth, Json.depthMembers]) toyProof_good (by decide) .base16Lower _
    (.base16 (hexEncode_spec _))
  exact ⟨_, _, _, _, _, _, _, h2, h4, rfl, rfl, by simp [multibaseEncode58], .base58 (multibaseEncode58_spec _),
    .base16 (hexEncode_spec _)⟩

/-! ### C58 -/

/-- C58 (credentials): which byte strings are accepted, and what is returned. -/
theorem C58_vc {E : Env} (L : E.JcsLaws) (pub : E.EdPub) (bs : Bytes) (purpose : ProofPurpose) (out : Option (VC E)) :
    verify E (VC E) pub bs purpose = .ok ⟨true, out⟩ ↔
      ∃ tree v p, JsonText tree bs ∧ ReadsVC E 126 tree v ∧ v.proof = some p ∧ GoodOptions E p ∧
        p.proofPurpose = purpose ∧ purpose ≠ .unknown ∧ VCComplete v ∧
        Accepts E pub (message E (optionBytes E (unvalued p)) (vcBytes (unsignedVC v))) p.proofValue ∧
        out = some (unsignedVC v) := by
  have h := C33_vc L pub bs purpose ⟨true, out⟩
  simp only [and_true, VerificationResult.mk.injEq, true_and] at h
  rw [h]
  constructor
  · rintro ⟨v, p, h1, h2⟩
    obtain ⟨r, h3, h4⟩ := (C51_reads_vc bs v).mp h1
    exact ⟨r, v, p, h3, h4, h2⟩
  · rintro ⟨r, v, p, h3, h4, h2⟩
    exact ⟨v, p, (C51_reads_vc bs v).mpr ⟨r, h3, h4⟩, h2⟩

/-- C58 (presentations). -/
theorem C58_vp {E : Env} (L : E.JcsLaws) (pub : E.EdPub) (bs : Bytes) (purpose : ProofPurpose) (out : Option (VP E)) :
    verify E (VP E) pub bs purpose = .ok ⟨true, out⟩ ↔
      ∃ tree v p, JsonText tree bs ∧ ReadsVP E 124 tree v ∧ v.proof = some p ∧ GoodOptions E p ∧
        p.proofPurpose = purpose ∧ purpose ≠ .unknown ∧ VPComplete v ∧
        Accepts E pub (message E (optionBytes E (unvalued p)) (vpBytes (unsignedVP v))) p.proofValue ∧
        out = some (unsignedVP v) := by
  have h := C33_vp L pub bs purpose ⟨true, out⟩
  simp only [and_true, VerificationResult.mk.injEq, true_and] at h
  rw [h]
  constructor
  · rintro ⟨v, p, h1, h2⟩
    obtain ⟨r, h3, h4⟩ := (C51_reads_vp bs v).mp h1
    exact ⟨r, v, p, h3, h4, h2⟩
  · rintro ⟨r, v, p, h3, h4, h2⟩
    exact ⟨v, p, (C51_reads_vp bs v).mpr ⟨r, h3, h4⟩, h2⟩

/-- A text that is accepted. -/
example : ∃ bs, verify Toy.env (VC Toy.env) (7 : UInt8) bs .assertionMethod = .ok ⟨true, some toyVC⟩ := by
  obtain ⟨_, _, _, h⟩ := C31_vc Toy.jcsLaws Toy.numLaws Toy.edLaws (7 : UInt8) toyVC toyProof toyVC_complete rfl
    toyProof_good (by decide) rfl
  obtain ⟨t, _, h⟩ := h (Toy.survives _) (by simp [toyVC, toySubject, Json.depth, Json.depthMembers])
  exact ⟨_, h⟩

end Verif.Props
