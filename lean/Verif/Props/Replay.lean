import Verif.Props.Limits

/-
C52: a signature belongs to one kind of document. No canonical text is at the same time the text of a credential
and of a presentation, or of either and of proof options; so a signature made for one is not accepted for the other,
unless the cryptography is broken in a way the theorem exhibits.
-/

namespace Verif

open Spec

/-- A member present in one object is present in every object with the same canonical tree. -/
theorem object_absent {E : Env} {l l' : List (String × Option (Json (Num E.F)))}
    (h : canonTree E (object l) = canonTree E (object l')) (hn : (l.map (·.1)).Nodup)
    (hn' : (l'.map (·.1)).Nodup) {k : String} {x : Json (Num E.F)} (hk : (k, some x) ∈ l) (hk' : k ∉ l'.map (·.1)) :
    False := by
  have e : object l' = object (l' ++ [(k, none)]) := by simp [object]
  rw [e] at h
  have hn'' : ((l' ++ [(k, (none : Option (Json (Num E.F))))]).map (·.1)).Nodup := by
    rw [List.map_append, List.nodup_append]
    refine ⟨hn', by simp, ?_⟩
    intro a ha b hb
    simp only [List.map_cons, List.map_nil, List.mem_singleton] at hb
    rw [hb]
    rintro rfl
    exact hk' ha
  have := object_inj hn hn'' h hk (o' := none) (by simp)
  simp at this

theorem canonTree_of_bytes {E : Env} (L : E.JcsLaws) {a b : Json (Num E.F)} (ha : DistinctKeys a)
    (hb : DistinctKeys b) (h : utf8 (canonicalText E a) = utf8 (canonicalText E b)) : canonTree E a = canonTree E b := by
  rw [← jcsText_eq L a ha, ← jcsText_eq L b hb, utf8_eq, utf8_eq] at h
  exact jcsText_inj L (utf8Encode_injective h)

theorem vcBytes_ne_vpBytes {E : Env} (L : E.JcsLaws) (v : VC E) (w : VP E) : vcBytes v ≠ vpBytes w := by
  intro h
  exact object_absent (canonTree_of_bytes L (vc_distinct v) (vp_distinct w) h) (by simp) (by simp)
    (k := "credentialSubject") (x := v.credentialSubject.1) (by simp) (by simp)

theorem vcBytes_ne_optionBytes {E : Env} (L : E.JcsLaws) (v : VC E) (p : Proof) : vcBytes v ≠ optionBytes E p := by
  intro h
  exact object_absent (canonTree_of_bytes L (vc_distinct v) (proof_distinct p) h) (by simp) (by simp)
    (k := "credentialSubject") (x := v.credentialSubject.1) (by simp) (by simp)

theorem vpBytes_ne_optionBytes {E : Env} (L : E.JcsLaws) (v : VP E) (p : Proof) : vpBytes v ≠ optionBytes E p := by
  intro h
  exact object_absent (canonTree_of_bytes L (vp_distinct v) (proof_distinct p) h) (by simp) (by simp)
    (k := "verifiableCredential") (x := .arr (v.verifiableCredential.map vcObject)) (by simp) (by simp)

theorem toRawMembers_mem {N : Type} (p : N → Bytes) (l : List (Str × Json N)) {kv : Bytes × Raw}
    (h : kv ∈ Json.toRawMembers p l) : ∃ k ∈ l.map (·.1), decStr kv.1 = some k := by
  induction l with
  | nil => simp [Json.toRawMembers] at h
  | cons x l ih =>
    simp only [Json.toRawMembers, List.mem_cons] at h
    rcases h with rfl | h
    · exact ⟨x.1, by simp, decStr_encStr _⟩
    · obtain ⟨k, hk, e⟩ := ih h
      exact ⟨k, by simp only [List.map_cons, List.mem_cons]; exact .inr hk, e⟩

theorem VC.not_vp {E : Env} {pr : Num E.F → Bytes} (v : VC E) (d : Nat) (w : VP E) :
    VP.dec E d (v.toTree.toRaw pr) ≠ some w := by
  intro h
  obtain ⟨fs, h1, _, _, h2, _⟩ := VP.dec_some h
  unfold VC.toTree at h1
  simp only [Json.toRaw] at h1
  rw [reqField_missing _ (structFields_missing h1 (n := "verifiableCredential".toList) ?_)] at h2
  · cases h2
  · intro kv hkv e
    obtain ⟨k, hk, e'⟩ := toRawMembers_mem _ _ hkv
    rw [e] at e'
    cases e'
    cases hp : v.proof <;> simp [hp, optMember] at hk

theorem VP.not_vc {E : Env} {pr : Num E.F → Bytes} (v : VP E) (d : Nat) (w : VC E) :
    VC.dec E d (v.toTree.toRaw pr) ≠ some w := by
  intro h
  obtain ⟨fs, h1, _, _, h2, _⟩ := VC.dec_some h
  unfold VP.toTree at h1
  simp only [Json.toRaw] at h1
  rw [reqField_missing _ (structFields_missing h1 (n := "credentialSubject".toList) ?_)] at h2
  · cases h2
  · intro kv hkv e
    obtain ⟨k, hk, e'⟩ := toRawMembers_mem _ _ hkv
    rw [e] at e'
    cases e'
    cases hp : v.proof <;> cases hh : v.holder <;> simp [hp, hh, optMember] at hk

end Verif

namespace Verif.Props
open Verif Spec

/-! ### C52 -/

/-- C52: no canonical text is that of a credential and of a presentation, nor of either and of proof options. -/
theorem C52_texts {E : Env} (L : E.JcsLaws) (v : VC E) (w : VP E) (p : Proof) (t : Str) :
    ¬ (v.toJcs = .ok t ∧ w.toJcs = .ok t) ∧ ¬ (v.toJcs = .ok t ∧ p.toJcs E = .ok t) ∧
      ¬ (w.toJcs = .ok t ∧ p.toJcs E = .ok t) := by
  refine ⟨?_, ?_, ?_⟩
  · rintro ⟨h1, h2⟩
    have a := ((vc_toJcs_iff L v t).mp h1).2
    have b := ((vp_toJcs_iff L w t).mp h2).2
    exact vcBytes_ne_vpBytes L v w (a.symm.trans b)
  · rintro ⟨h1, h2⟩
    have a := ((vc_toJcs_iff L v t).mp h1).2
    rw [C49_proof_canonical L] at h2
    rw [← Except.ok.inj h2, ← utf8_eq] at a
    exact vcBytes_ne_optionBytes L v p a.symm
  · rintro ⟨h1, h2⟩
    have a := ((vp_toJcs_iff L w t).mp h1).2
    rw [C49_proof_canonical L] at h2
    rw [← Except.ok.inj h2, ← utf8_eq] at a
    exact vpBytes_ne_optionBytes L w p a.symm

/-- C52: what is written for a credential is never read as a presentation, nor the other way round. -/
theorem C52_readers {E : Env} (L : E.NumLaws) :
    (∀ (v : VC E) t, v.toJson = .ok t → ∀ w, VP.parseJsonBytes E t.toBytes ≠ .ok w) ∧
    (∀ (v : VP E) t, v.toJson = .ok t → ∀ w, VC.parseJsonBytes E t.toBytes ≠ .ok w) := by
  refine ⟨?_, ?_⟩
  · intro v t ht w hw
    have hv := (C24_serialise_iff v).1.mp ⟨t, ht⟩
    have ht' : v.toJson = .ok ⟨jsonText E v.toTree⟩ := by unfold VC.toJson; rw [(C24_validate v).1.mpr hv]; rfl
    have e := Except.ok.inj (ht'.symm.trans ht)
    subst e
    cases hd : VP.dec E 128 (v.toTree.toRaw (printNum E.floatPrint)) with
    | some x => exact VC.not_vp v 128 x hd
    | none =>
      have hp : VP.parseJsonBytes E (JSONValue.mk (jsonText E v.toTree)).toBytes = .error (.proofGenerationError (E.msg (.vp (JSONValue.mk (jsonText E v.toTree)).toBytes))) := by
        unfold VP.parseJsonBytes JSONValue.toBytes
        rw [fromSlice_text L, hd]
      rw [hp] at hw
      cases hw
  · intro v t ht w hw
    have hv := (C25_serialise_iff v).1.mp ⟨t, ht⟩
    have ht' : v.toJson = .ok ⟨jsonText E v.toTree⟩ := by unfold VP.toJson; rw [(C25_validate v).1.mpr hv]; rfl
    have e := Except.ok.inj (ht'.symm.trans ht)
    subst e
    cases hd : VC.dec E 128 (v.toTree.toRaw (printNum E.floatPrint)) with
    | some x => exact VP.not_vc v 128 x hd
    | none =>
      have hp : VC.parseJsonBytes E (JSONValue.mk (jsonText E v.toTree)).toBytes = .error (.proofGenerationError (E.msg (.vc (JSONValue.mk (jsonText E v.toTree)).toBytes))) := by
        unfold VC.parseJsonBytes JSONValue.toBytes
        rw [fromSlice_text L, hd]
      rw [hp] at hw
      cases hw

/-- C52: a signature made for a credential is accepted for no presentation, or the cryptography is broken. -/
theorem C52_vc_as_vp {E : Env} (H : E.HashLaws) (L : E.JcsLaws) (kp : E.EdKP) (v : VC E) (opts : Proof) (signed : VC E)
    (q0 : Proof) (sig : Bytes) (hs : sign E (VC E) kp v opts = .ok signed) (hq0 : signed.proof = some q0)
    (hsig : IsMultibase58 sig q0.proofValue)
    (pub : E.EdPub) (bs : Bytes) (purpose : ProofPurpose) (w : VP E) (q : Proof) (base : MBase)
    (ha : AcceptedVP pub bs purpose w) (hq : w.proof = some q) (hqsig : IsMultibase E base sig q.proofValue) :
    Broken E kp pub sig (optionBytes E opts) (vcBytes v) (optionBytes E (unvalued q)) (vpBytes (unsignedVP w)) := by
  obtain ⟨hw, r, hr, hok⟩ := ha
  obtain ⟨_, _, hv, text, ht, rfl⟩ := ((C32_vc L kp v opts).1 _).mp hs
  obtain ⟨w', q', h1, h2, _, _, _, h3, ⟨base', sig', hex, h4, h5, h6⟩, _⟩ := (C33_vp L pub bs purpose r).mp ⟨hr, hok⟩
  rw [hw] at h1; cases h1
  rw [hq] at h2; cases h2
  cases isMultibase_bytes hqsig h4
  cases hq0
  have hmade := isMultibase_bytes (E := E) (.base58 hsig) (.base58 ht)
  rcases same_or_broken H hmade h5 h6 with ⟨a, b⟩ | h
  · exact (vcBytes_ne_vpBytes L _ _ b).elim
  · exact h

/-- C52: a signature made for a presentation is accepted for no credential, or the cryptography is broken. -/
theorem C52_vp_as_vc {E : Env} (H : E.HashLaws) (L : E.JcsLaws) (kp : E.EdKP) (v : VP E) (opts : Proof) (signed : VP E)
    (q0 : Proof) (sig : Bytes) (hs : sign E (VP E) kp v opts = .ok signed) (hq0 : signed.proof = some q0)
    (hsig : IsMultibase58 sig q0.proofValue)
    (pub : E.EdPub) (bs : Bytes) (purpose : ProofPurpose) (w : VC E) (q : Proof) (base : MBase)
    (ha : AcceptedVC pub bs purpose w) (hq : w.proof = some q) (hqsig : IsMultibase E base sig q.proofValue) :
    Broken E kp pub sig (optionBytes E opts) (vpBytes v) (optionBytes E (unvalued q)) (vcBytes (unsignedVC w)) := by
  obtain ⟨hw, r, hr, hok⟩ := ha
  obtain ⟨_, _, hv, text, ht, rfl⟩ := ((C32_vp L kp v opts).1 _).mp hs
  obtain ⟨w', q', h1, h2, _, _, _, h3, ⟨base', sig', hex, h4, h5, h6⟩, _⟩ := (C33_vc L pub bs purpose r).mp ⟨hr, hok⟩
  rw [hw] at h1; cases h1
  rw [hq] at h2; cases h2
  cases isMultibase_bytes hqsig h4
  cases hq0
  have hmade := isMultibase_bytes (E := E) (.base58 hsig) (.base58 ht)
  rcases same_or_broken H hmade h5 h6 with ⟨a, b⟩ | h
  · exact (vcBytes_ne_vpBytes L _ _ b.symm).elim
  · exact h

/-- C52: whoever made it, one signature under one key accepted both for a credential and for a presentation is
accepted for two different messages, or SHA-256 collides on the two documents. -/
theorem C52_both {E : Env} (H : E.HashLaws) (L : E.JcsLaws) (pub : E.EdPub) (bs bs' : Bytes)
    (purpose purpose' : ProofPurpose) (v : VC E) (w : VP E) (q q' : Proof) (sig : Bytes) (base base' : MBase)
    (ha : AcceptedVC pub bs purpose v) (hw : AcceptedVP pub bs' purpose' w) (hq : v.proof = some q)
    (hq' : w.proof = some q') (hsig : IsMultibase E base sig q.proofValue)
    (hsig' : IsMultibase E base' sig q'.proofValue) :
    (∃ m m' hex, m ≠ m' ∧ IsHex sig hex ∧ E.edVerify pub m hex = .ok true ∧ E.edVerify pub m' hex = .ok true) ∨
    (vcBytes (unsignedVC v) ≠ vpBytes (unsignedVP w) ∧
      E.sha256 (vcBytes (unsignedVC v)) = E.sha256 (vpBytes (unsignedVP w))) := by
  obtain ⟨hv1, r, hr, hok⟩ := ha
  obtain ⟨hw1, r', hr', hok'⟩ := hw
  obtain ⟨v', p, a1, a2, _, _, _, _, ⟨_, _, hex, a4, a5, a6⟩, _⟩ := (C33_vc L pub bs purpose r).mp ⟨hr, hok⟩
  obtain ⟨w', p', b1, b2, _, _, _, _, ⟨_, _, hex', b4, b5, b6⟩, _⟩ := (C33_vp L pub bs' purpose' r').mp ⟨hr', hok'⟩
  rw [hv1] at a1; cases a1
  rw [hw1] at b1; cases b1
  rw [hq] at a2; cases a2
  rw [hq'] at b2; cases b2
  cases isMultibase_bytes hsig a4
  cases isMultibase_bytes hsig' b4
  have e : hex' = hex := b5.unique.trans a5.unique.symm
  subst e
  by_cases hm : message E (optionBytes E (unvalued q)) (vcBytes (unsignedVC v)) =
      message E (optionBytes E (unvalued q')) (vpBytes (unsignedVP w))
  · exact .inr ⟨vcBytes_ne_vpBytes L _ _, (C47_separated H _ _ _ _ hm).2⟩
  · exact .inl ⟨_, _, _, hm, a5, a6, b6⟩

/-- A presentation carrying the sample credential, with a given proof value. -/
def weakVP (text : Str) : VP Toy.weak :=
  ⟨["c".toList], ["t".toList], [weakVC], some { toyProof with proofValue := text }, none⟩

/-- Where the cryptography is broken the hypotheses of `C52_vc_as_vp` and of `C52_both` are met. -/
example : ∃ (signed : VC Toy.weak) (q0 : Proof) (sig : Bytes) (bs bs' : Bytes) (w : VP Toy.weak) (q : Proof),
    sign Toy.weak (VC Toy.weak) (7 : UInt8) weakVC toyProof = .ok signed ∧ signed.proof = some q0 ∧
    IsMultibase58 sig q0.proofValue ∧ AcceptedVC (E := Toy.weak) (7 : UInt8) bs .assertionMethod signed ∧
    AcceptedVP (E := Toy.weak) (7 : UInt8) bs' .assertionMethod w ∧ w.proof = some q ∧
    IsMultibase Toy.weak .base58Btc sig q.proofValue := by
  have hg : GoodOptions Toy.weak toyProof := ⟨toyProof_good.1, toyProof_good.2, toyProof_good.3⟩
  have hc : VCComplete weakVC := ⟨by simp [weakVC], by simp [weakVC], by simp [weakVC]⟩
  have hs := ((C32_vc Toy.weak_jcsLaws (7 : UInt8) weakVC toyProof).1 _).mpr
    ⟨hg, by decide, hc, _, multibaseEncode58_spec _, rfl⟩
  obtain ⟨t, h1, h2⟩ := accepted_vc Toy.weak_jcsLaws Toy.weak_numLaws Toy.weak_edLaws (7 : UInt8) weakVC toyProof hc
    (by simp [weakVC, Survives, Json.nums]) (by simp [weakVC, Json.depth]) hg (by decide) .base58Btc _
    (.base58 (multibaseEncode58_spec _))
  have hp : ∀ text, VPComplete (weakVP text) := fun _ => ⟨by simp [weakVP], by simp [weakVP], by simp [weakVP]⟩
  obtain ⟨t', h3, h4⟩ := C27_json_roundtrip Toy.weak_numLaws (weakVP (multibaseEncode58 (Toy.weak.edSign (7 : UInt8)
      (message Toy.weak (optionBytes Toy.weak toyProof) (vcBytes weakVC))))) (hp _)
    (by simp [weakVP, weakVC, Survives, Json.nums]) (by simp [weakVP, weakVC, Json.depth])
  have h5 := (C33_vp Toy.weak_jcsLaws (7 : UInt8) t'.toBytes .assertionMethod ⟨true, some (unsignedVP (weakVP []))⟩).mpr
    ⟨_, _, h4, rfl, ⟨hg.1, hg.2, hg.3⟩, rfl, by decide, hp _,
      ⟨_, _, _, .base58 (multibaseEncode58_spec _), hexEncode_spec _, rfl⟩, rfl⟩
  exact ⟨_, _, _, _, _, _, _, hs, rfl, multibaseEncode58_spec _, h2, ⟨h4, _, h5⟩, rfl, .base58 (multibaseEncode58_spec _)⟩

/-- Both kinds are written, so `C52_texts` and `C52_readers` speak of something. -/
example : (∃ t, toyVC.toJcs = .ok t) ∧ (∃ t, toyVP.toJcs = .ok t) ∧ (∃ t, toyVC.toJson = .ok t) ∧ ∃ t, toyVP.toJson = .ok t :=
  ⟨⟨_, rfl⟩, ⟨_, rfl⟩, ⟨_, rfl⟩, ⟨_, rfl⟩⟩

end Verif.Props
