import Verif.Props.Modelled
import Verif.Props.Portable

/-
C111: the callers of C101, C106 and C108 put together: one reader that makes all their checks and one issuer that publishes
only what this reader returns (core/src/verifiable/proof/integrity.rs `add_proof`, `verify_proof`,
core/src/verifiable/objects/vc.rs, vp.rs). The checks do not get in each other's way, and what each of them achieves is
achieved by the whole, in every build and under both orders of names.
-/

namespace Verif.Whole
open Verif

/-- Caller's code: the reader of C108 with the table of C106, and the checks of C106 on the proof. -/
def readVC (E : Env) (T : Portable.Table) (purpose : ProofPurpose) (bs : Bytes) : Option (VC E) :=
  (Modelled.readVC (Portable.policy E T) purpose bs).filter fun v => Portable.proofOk E v.proof

/-- Caller's code: the same for presentations, with the proofs inside. -/
def readVP (E : Env) (T : Portable.Table) (purpose : ProofPurpose) (bs : Bytes) : Option (VP E) :=
  (Modelled.readVP (Portable.policy E T) purpose bs).filter fun v =>
    Portable.proofOk E v.proof && v.verifiableCredential.all fun c => Portable.proofOk E c.proof

/-- Caller's code: signs with the signer of C108 and publishes the canonical text if it reads back. -/
def issueVC (E : Env) (T : Portable.Table) (kp : E.EdKP) (v : VC E) (opts : Proof) : Option Str :=
  (Modelled.signVC kp v opts).bind fun signed =>
    signed.toJcs.toOption.filter fun t => (readVC E T opts.proofPurpose (utf8Encode t)).isSome

/-- Caller's code: the same for presentations. -/
def issueVP (E : Env) (T : Portable.Table) (kp : E.EdKP) (v : VP E) (opts : Proof) : Option Str :=
  (Modelled.signVP kp v opts).bind fun signed =>
    signed.toJcs.toOption.filter fun t => (readVP E T opts.proofPurpose (utf8Encode t)).isSome

end Verif.Whole

namespace Verif.Props
open Verif Spec Portable

section
variable {E : Env} {seed : E.EdKP → Bytes} {bits : E.F → Double.F64} {parts : E.Multiaddr → List AddrPart}

theorem whole_vc (T : Table) (purpose : ProofPurpose) (bs : Bytes) (v : VC E) : Whole.readVC E T purpose bs = some v ↔
    Modelled.readVC (policy E T) purpose bs = some v ∧ Portable.readVC E T purpose bs = some v := by
  unfold Whole.readVC
  rw [filter_iff, portable_readVC]
  exact and_congr_right fun h => ⟨fun hp => ⟨((filter_iff _ _ _).mp h).1, hp⟩, And.right⟩

theorem whole_vp (T : Table) (purpose : ProofPurpose) (bs : Bytes) (v : VP E) : Whole.readVP E T purpose bs = some v ↔
    Modelled.readVP (policy E T) purpose bs = some v ∧ Portable.readVP E T purpose bs = some v := by
  unfold Whole.readVP
  rw [filter_iff, portable_readVP, Bool.and_eq_true, List.all_eq_true]
  exact and_congr_right fun h => ⟨fun hp => ⟨((filter_iff _ _ _).mp h).1, hp⟩, And.right⟩

/-- C111: whatever the whole reader returns is returned by the readers of C101, C106 and C108, so all that is shown for them
holds. -/
theorem C111_below (T : Table) (purpose : ProofPurpose) (bs : Bytes) :
    (∀ v : VC E, Whole.readVC E T purpose bs = some v → Careful.readVC (policy E T) purpose bs = some v ∧
      Portable.readVC E T purpose bs = some v ∧ Modelled.readVC (policy E T) purpose bs = some v) ∧
    ∀ v : VP E, Whole.readVP E T purpose bs = some v → Careful.readVP (policy E T) purpose bs = some v ∧
      Portable.readVP E T purpose bs = some v ∧ Modelled.readVP (policy E T) purpose bs = some v := by
  constructor
  · intro v h
    obtain ⟨h1, h2⟩ := (whole_vc T purpose bs v).mp h
    exact ⟨((filter_iff _ _ _).mp h1).1, h2, h1⟩
  · intro v h
    obtain ⟨h1, h2⟩ := (whole_vp T purpose bs v).mp h
    exact ⟨((filter_iff _ _ _).mp h1).1, h2, h1⟩

/-- C111: exactly what the whole reader returns: a credential with a proof as the standards have it, in a text by the data model,
with names in no doubtful order. -/
theorem C111_vc (C : Conforms E seed bits parts) (V : Between E) (T : Table) (purpose : ProofPurpose) (bs : Bytes) (v : VC E) :
    Whole.readVC E T purpose bs = some v ↔ AgreedVC E T purpose bs v ∧ TextIs CredentialModel bs ∧ Undisputed [v] := by
  rw [whole_vc, C108_read_vc C.jcs, C106_vc C V]
  constructor
  · rintro ⟨⟨-, h2, h3⟩, h⟩
    exact ⟨h, h2, h3⟩
  · rintro ⟨h, h2, h3⟩
    exact ⟨⟨(C101_vc C.jcs _ _ _ _).mp ((portable_readVC T purpose bs v).mp ((C106_vc C V T purpose bs v).mpr h)).1, h2, h3⟩, h⟩

/-- C111 (presentations). -/
theorem C111_vp (C : Conforms E seed bits parts) (V : Between E) (T : Table) (purpose : ProofPurpose) (bs : Bytes) (v : VP E) :
    Whole.readVP E T purpose bs = some v ↔
      AgreedVP E T purpose bs v ∧ TextIs PresentationModel bs ∧ Undisputed v.verifiableCredential := by
  rw [whole_vp, C108_read_vp C.jcs, C106_vp C V]
  constructor
  · rintro ⟨⟨-, h2, h3⟩, h⟩
    exact ⟨h, h2, h3⟩
  · rintro ⟨h, h2, h3⟩
    exact ⟨⟨(C101_vp C.jcs _ _ _ _).mp ((portable_readVP T purpose bs v).mp ((C106_vp C V T purpose bs v).mpr h)).1, h2, h3⟩, h⟩

/-- C111: a presentation is returned only with credentials that are returned by themselves, each from its own text. -/
theorem C111_inside (C : Conforms E seed bits parts) (V : Between E) (T : Table) (purpose : ProofPurpose) (bs : Bytes) (v : VP E)
    (h : Whole.readVP E T purpose bs = some v) (c : VC E) (hc : c ∈ v.verifiableCredential) :
    ∃ t, c.toJcs = .ok t ∧ Whole.readVC E T .assertionMethod (utf8 t) = some c := by
  obtain ⟨h1, h2, h3⟩ := (C111_vp C V T purpose bs v).mp h
  obtain ⟨t, ht, hr⟩ := (C106_all_vp C V T purpose bs v ((C106_vp C V T purpose bs v).mpr h1)).2 c hc
  refine ⟨t, ht, (C111_vc C V T _ _ _).mpr ⟨(C106_vc C V T _ _ _).mp hr, (C91_vc_canonical C.jcs c t ht).mpr ?_, ?_⟩⟩
  · have hv := C49_vp_canonical C.jcs v h1.complete
    have := (C91_vp_canonical C.jcs v _ hv).mp (by rw [h1.text] at h2; exact h2)
    exact this.credentials c hc
  · exact h3.imp (fun g x hx => List.mem_singleton.mp hx ▸ g c hc) fun g x hx => List.mem_singleton.mp hx ▸ g c hc

end

/-! ### Two builds -/

section
variable {E₁ E₂ : Env} {seed₁ : E₁.EdKP → Bytes} {seed₂ : E₂.EdKP → Bytes} {bits₁ : E₁.F → Double.F64} {bits₂ : E₂.F → Double.F64}
  {parts₁ : E₁.Multiaddr → List AddrPart} {parts₂ : E₂.Multiaddr → List AddrPart}

theorem builds_names (C₁ : Conforms E₁ seed₁ bits₁ parts₁) (C₂ : Conforms E₂ seed₂ bits₂ parts₂) {v₁ : VC E₁} {v₂ : VC E₂}
    (h : SameCredential v₁ v₂) (P : Str → Prop) : AllNames P v₁.credentialSubject.1 ↔ AllNames P v₂.credentialSubject.1 := by
  cases (same_vc C₁ C₂ v₁ v₂).mp h
  exact (names_mapNum _ P _).symm

theorem builds_undisputed (C₁ : Conforms E₁ seed₁ bits₁ parts₁) (C₂ : Conforms E₂ seed₂ bits₂ parts₂) {cs : List (VC E₁)}
    {ds : List (VC E₂)} (h : List.Forall₂ SameCredential cs ds) : Undisputed cs ↔ Undisputed ds := by
  have key : ∀ P : Str → Prop, (∀ c ∈ cs, AllNames P c.credentialSubject.1) ↔ ∀ c ∈ ds, AllNames P c.credentialSubject.1 := by
    intro P
    induction h with
    | nil => exact ⟨(fun _ _ h => nomatch h), fun _ _ h => nomatch h⟩
    | cons h _ ih => rw [List.forall_mem_cons, List.forall_mem_cons, ih, builds_names C₁ C₂ h]
  unfold Undisputed
  rw [key, key]

/-- C111: a reader with a wider table returns at least as much, in every build. -/
theorem C111_wider (C₁ : Conforms E₁ seed₁ bits₁ parts₁) (C₂ : Conforms E₂ seed₂ bits₂ parts₂) (V₁ : Between E₁) (V₂ : Between E₂)
    (T₁ T₂ : Table) (hT : Wider T₁ T₂) (purpose : ProofPurpose) (bs : Bytes) :
    (∀ v₁, Whole.readVC E₁ T₁ purpose bs = some v₁ → ∃ v₂, Whole.readVC E₂ T₂ purpose bs = some v₂ ∧ SameCredential v₁ v₂) ∧
    ∀ v₁, Whole.readVP E₁ T₁ purpose bs = some v₁ → ∃ v₂, Whole.readVP E₂ T₂ purpose bs = some v₂ ∧ SamePresentation v₁ v₂ := by
  constructor
  · intro v₁ h
    obtain ⟨h1, h2, h3⟩ := (C111_vc C₁ V₁ T₁ purpose bs v₁).mp h
    obtain ⟨v₂, g1, g2⟩ := (C106_wider C₁ C₂ V₁ V₂ T₁ T₂ hT purpose bs).1 v₁ ((C106_vc C₁ V₁ T₁ purpose bs v₁).mpr h1)
    exact ⟨v₂, (C111_vc C₂ V₂ T₂ purpose bs v₂).mpr ⟨(C106_vc C₂ V₂ T₂ purpose bs v₂).mp g1, h2,
      (builds_undisputed C₁ C₂ (.cons g2 .nil)).mp h3⟩, g2⟩
  · intro v₁ h
    obtain ⟨h1, h2, h3⟩ := (C111_vp C₁ V₁ T₁ purpose bs v₁).mp h
    obtain ⟨v₂, g1, g2⟩ := (C106_wider C₁ C₂ V₁ V₂ T₁ T₂ hT purpose bs).2 v₁ ((C106_vp C₁ V₁ T₁ purpose bs v₁).mpr h1)
    exact ⟨v₂, (C111_vp C₂ V₂ T₂ purpose bs v₂).mpr ⟨(C106_vp C₂ V₂ T₂ purpose bs v₂).mp g1, h2,
      (builds_undisputed C₁ C₂ g2.credentials).mp h3⟩, g2⟩

/-- C111: two builds with one table give the same answer for every text. -/
theorem C111_same (C₁ : Conforms E₁ seed₁ bits₁ parts₁) (C₂ : Conforms E₂ seed₂ bits₂ parts₂) (V₁ : Between E₁) (V₂ : Between E₂)
    (T : Table) (purpose : ProofPurpose) (bs : Bytes) :
    NoneOrBoth SameCredential (Whole.readVC E₁ T purpose bs) (Whole.readVC E₂ T purpose bs) ∧
    NoneOrBoth SamePresentation (Whole.readVP E₁ T purpose bs) (Whole.readVP E₂ T purpose bs) := by
  have hT : Wider T T := ⟨fun _ _ h => h, fun _ h => h⟩
  have there := C111_wider C₁ C₂ V₁ V₂ T T hT purpose bs
  have back := C111_wider C₂ C₁ V₂ V₁ T T hT purpose bs
  constructor
  · cases h₁ : Whole.readVC E₁ T purpose bs with
    | some v₁ =>
      obtain ⟨v₂, h₂, hs⟩ := there.1 v₁ h₁
      exact .inr ⟨v₁, v₂, rfl, h₂, hs⟩
    | none =>
      cases h₂ : Whole.readVC E₂ T purpose bs with
      | none => exact .inl ⟨rfl, rfl⟩
      | some v₂ =>
        obtain ⟨v₁, h, -⟩ := back.1 v₂ h₂
        rw [h₁] at h
        cases h
  · cases h₁ : Whole.readVP E₁ T purpose bs with
    | some v₁ =>
      obtain ⟨v₂, h₂, hs⟩ := there.2 v₁ h₁
      exact .inr ⟨v₁, v₂, rfl, h₂, hs⟩
    | none =>
      cases h₂ : Whole.readVP E₂ T purpose bs with
      | none => exact .inl ⟨rfl, rfl⟩
      | some v₂ =>
        obtain ⟨v₁, h, -⟩ := back.2 v₂ h₂
        rw [h₁] at h
        cases h

end

/-- C111: under the member order of RFC 8785 and under that of Rust's strings the whole reader returns the same. -/
theorem C111_order {E : Env} (L : E.JcsLaws) (T : Table) (purpose : ProofPurpose) (bs : Bytes) :
    (∀ v : VC E, Whole.readVC (E.withOrder unitLe) T purpose bs = some (moveVC unitLe v) ↔
      Whole.readVC (E.withOrder pointLe) T purpose bs = some (moveVC pointLe v)) ∧
    ∀ v : VP E, Whole.readVP (E.withOrder unitLe) T purpose bs = some (moveVP unitLe v) ↔
      Whole.readVP (E.withOrder pointLe) T purpose bs = some (moveVP pointLe v) := by
  have o := C108_order_read L (policy E T) purpose bs
  constructor
  · intro v
    unfold Whole.readVC
    rw [filter_iff, filter_iff]
    exact and_congr (o.1 v) Iff.rfl
  · intro v
    unfold Whole.readVP
    rw [filter_iff, filter_iff]
    refine and_congr (o.2 v) ?_
    rw [Bool.and_eq_true, Bool.and_eq_true, List.all_eq_true, List.all_eq_true]
    refine and_congr Iff.rfl ?_
    show (∀ c ∈ v.verifiableCredential.map (moveVC unitLe), _) ↔ ∀ c ∈ v.verifiableCredential.map (moveVC pointLe), _
    rw [List.forall_mem_map, List.forall_mem_map]
    exact Iff.rfl

/-! ### Issuing -/

section
variable {E : Env} {seed : E.EdKP → Bytes} {bits : E.F → Double.F64} {parts : E.Multiaddr → List AddrPart}

theorem whole_issueVC (T : Table) (kp : E.EdKP) (v : VC E) (opts : Proof) (t : Str) : Whole.issueVC E T kp v opts = some t ↔
    ∃ signed w, Modelled.signVC kp v opts = some signed ∧ signed.toJcs = .ok t ∧
      Whole.readVC E T opts.proofPurpose (utf8Encode t) = some w := by
  unfold Whole.issueVC
  rw [Option.bind_eq_some_iff]
  refine exists_congr fun signed => ?_
  rw [filter_iff, toOption_iff, Option.isSome_iff_exists]
  exact ⟨fun ⟨h1, h2, w, h3⟩ => ⟨w, h1, h2, h3⟩, fun ⟨w, h1, h2, h3⟩ => ⟨h1, h2, w, h3⟩⟩

theorem whole_issueVP (T : Table) (kp : E.EdKP) (v : VP E) (opts : Proof) (t : Str) : Whole.issueVP E T kp v opts = some t ↔
    ∃ signed w, Modelled.signVP kp v opts = some signed ∧ signed.toJcs = .ok t ∧
      Whole.readVP E T opts.proofPurpose (utf8Encode t) = some w := by
  unfold Whole.issueVP
  rw [Option.bind_eq_some_iff]
  refine exists_congr fun signed => ?_
  rw [filter_iff, toOption_iff, Option.isSome_iff_exists]
  exact ⟨fun ⟨h1, h2, w, h3⟩ => ⟨w, h1, h2, h3⟩, fun ⟨w, h1, h2, h3⟩ => ⟨h1, h2, w, h3⟩⟩

/-- C111: the whole issuer publishes exactly what the issuer of C106 publishes that is by the data model with names in no doubtful
order: no check of one part refuses what the others make. -/
theorem C111_issue_vc (C : Conforms E seed bits parts) (V : Between E) (T : Table) (kp : E.EdKP) (v : VC E) (opts : Proof) (t : Str) :
    Whole.issueVC E T kp v opts = some t ↔
      Portable.issueVC E T kp v opts = some t ∧ TextIs CredentialModel (utf8 t) ∧ Undisputed [v] := by
  rw [whole_issueVC, issueVC_iff]
  constructor
  · rintro ⟨signed, w, h1, h2, h3⟩
    obtain ⟨g1, g2, g3⟩ := (C108_sign_vc C.jcs kp v opts signed).mp h1
    refine ⟨⟨signed, w, g1, h2, ((whole_vc T _ _ _).mp h3).2⟩, (C91_vc_canonical C.jcs _ _ h2).mpr g2, ?_⟩
    cases sealed_eq C.jcs g1
    exact (undisputed_append (show (sealedVC kp v opts).credentialSubject = v.credentialSubject from rfl)).mp g3
  · rintro ⟨⟨signed, w, g1, h2, h3⟩, ht, hu⟩
    have hu' : Undisputed [signed] := by
      cases sealed_eq C.jcs g1
      exact (undisputed_append (show (sealedVC kp v opts).credentialSubject = v.credentialSubject from rfl)).mpr hu
    have ha := (C106_vc C V T _ _ _).mp h3
    have hsame := (C29_vc C.jcs _ w ((vc_toJcs_iff C.jcs _ t).mp h2).1 ha.complete).mp
      (h2.trans ((vc_toJcs_iff C.jcs w t).mpr ⟨ha.complete, ha.text⟩).symm)
    refine ⟨signed, w, (C108_sign_vc C.jcs kp v opts signed).mpr ⟨g1, (C91_vc_canonical C.jcs _ _ h2).mp ht, hu'⟩, h2,
      (C111_vc C V T _ _ _).mpr ⟨ha, ?_, (same_undisputed (.cons hsame .nil)).mp hu'⟩⟩
    rw [← utf8_eq]
    exact ht

/-- C111 (presentations). -/
theorem C111_issue_vp (C : Conforms E seed bits parts) (V : Between E) (T : Table) (kp : E.EdKP) (v : VP E) (opts : Proof) (t : Str) :
    Whole.issueVP E T kp v opts = some t ↔
      Portable.issueVP E T kp v opts = some t ∧ TextIs PresentationModel (utf8 t) ∧ Undisputed v.verifiableCredential := by
  rw [whole_issueVP, issueVP_iff]
  have same : ∀ {signed}, Careful.signVP kp v opts = .ok signed → signed.verifiableCredential = v.verifiableCredential := by
    intro signed h
    obtain ⟨-, -, -, text, -, rfl⟩ := ((C32_vp C.jcs kp _ _).1 _).mp h
    rfl
  constructor
  · rintro ⟨signed, w, h1, h2, h3⟩
    obtain ⟨g1, g2, g3⟩ := (C108_sign_vp C.jcs kp v opts signed).mp h1
    exact ⟨⟨signed, w, g1, h2, ((whole_vp T _ _ _).mp h3).2⟩, (C91_vp_canonical C.jcs _ _ h2).mpr g2, same g1 ▸ g3⟩
  · rintro ⟨⟨signed, w, g1, h2, h3⟩, ht, hu⟩
    have hu' : Undisputed signed.verifiableCredential := (same g1).symm ▸ hu
    have ha := (C106_vp C V T _ _ _).mp h3
    have hsame := (C29_vp C.jcs _ w ((vp_toJcs_iff C.jcs _ t).mp h2).1 ha.complete).mp
      (h2.trans ((vp_toJcs_iff C.jcs w t).mpr ⟨ha.complete, ha.text⟩).symm)
    refine ⟨signed, w, (C108_sign_vp C.jcs kp v opts signed).mpr ⟨g1, (C91_vp_canonical C.jcs _ _ h2).mp ht, hu'⟩, h2,
      (C111_vp C V T _ _ _).mpr ⟨ha, ?_, (same_undisputed hsame.credentials).mp hu'⟩⟩
    rw [← utf8_eq]
    exact ht

end

section
variable {E₁ E₂ : Env} {seed₁ : E₁.EdKP → Bytes} {seed₂ : E₂.EdKP → Bytes} {bits₁ : E₁.F → Double.F64} {bits₂ : E₂.F → Double.F64}
  {parts₁ : E₁.Multiaddr → List AddrPart} {parts₂ : E₂.Multiaddr → List AddrPart}

/-- C111: what the whole issuer publishes, the whole reader of every build returns, in the text it was published in. -/
theorem C111_issued (C₁ : Conforms E₁ seed₁ bits₁ parts₁) (C₂ : Conforms E₂ seed₂ bits₂ parts₂) (V₁ : Between E₁) (V₂ : Between E₂)
    (T₁ T₂ : Table) (hT : Wider T₁ T₂) (kp : E₁.EdKP) (opts : Proof) (t : Str) :
    (∀ v, Whole.issueVC E₁ T₁ kp v opts = some t → ∃ w, Whole.readVC E₂ T₂ opts.proofPurpose (utf8 t) = some w ∧ w.toJcs = .ok t ∧
      w.issuer = v.issuer ∧ w.id = v.id ∧ w.types = v.types ∧ w.contexts = v.contexts) ∧
    ∀ v, Whole.issueVP E₁ T₁ kp v opts = some t → ∃ w, Whole.readVP E₂ T₂ opts.proofPurpose (utf8 t) = some w ∧ w.toJcs = .ok t ∧
      w.holder = v.holder ∧ w.verifiableCredential.length = v.verifiableCredential.length := by
  constructor
  · intro v h
    obtain ⟨w, h1, h2⟩ := C106_issued_vc C₁ C₂ V₁ V₂ T₁ T₂ hT kp v opts t ((C111_issue_vc C₁ V₁ T₁ kp v opts t).mp h).1
    obtain ⟨_, w₁, -, -, h3⟩ := (whole_issueVC T₁ kp v opts t).mp h
    obtain ⟨w', h4, -⟩ := (C111_wider C₁ C₂ V₁ V₂ T₁ T₂ hT _ _).1 w₁ h3
    have e := ((whole_vc T₂ _ _ _).mp h4).2
    rw [← utf8_eq, h1] at e
    cases e
    exact ⟨w, by rw [utf8_eq]; exact h4, h2⟩
  · intro v h
    obtain ⟨w, h1, h2⟩ := C106_issued_vp C₁ C₂ V₁ V₂ T₁ T₂ hT kp v opts t ((C111_issue_vp C₁ V₁ T₁ kp v opts t).mp h).1
    obtain ⟨_, w₁, -, -, h3⟩ := (whole_issueVP T₁ kp v opts t).mp h
    obtain ⟨w', h4, -⟩ := (C111_wider C₁ C₂ V₁ V₂ T₁ T₂ hT _ _).2 w₁ h3
    have e := ((whole_vp T₂ _ _ _).mp h4).2
    rw [← utf8_eq, h1] at e
    cases e
    exact ⟨w, by rw [utf8_eq]; exact h4, h2⟩

end

/-! ### Cases -/

/-- A credential by the data model with a number that is not whole. -/
def entireVC : VC one :=
  ⟨["https://www.w3.org/ns/credentials/v2".toList], ["VerifiableCredential".toList],
    ⟨.obj [("n".toList, .arr [.num (.float small), .num (.pos 7)])], by simp [Json.Sorted, Json.SortedMembers, Json.SortedList, KeysSorted]⟩, none,
    "urn:1".toList, "did:prople:x".toList⟩

theorem entireVC_complete : VCComplete entireVC := ⟨nofun, nofun, nofun⟩

theorem entireVC_undisputed : Undisputed [entireVC] := .inl fun c hc => by
  rw [List.mem_singleton.mp hc]
  simp [entireVC, AllNames, AllNamesMembers, AllNamesElems, Basic]

theorem entireVC_fields : CredentialFields entireVC :=
  ⟨rfl, (fun _ h => nomatch h), by decide, isUri_of "urn".toList "1".toList rfl (by decide) (by decide) (by decide),
    isUri_of "did".toList "prople:x".toList rfl (by decide) (by decide) (by decide), .inl ⟨_, _, rfl⟩, (fun _ h => nomatch h)⟩

theorem entireVC_rereads : Rereads one entireVC.credentialSubject.1 := by
  refine (C80_documents one_conforms.standard.numbers _ fun f hf => ?_).2
  simp only [entireVC, Json.nums, Json.numsMembers, Json.numsList, List.mem_append, List.mem_singleton, List.not_mem_nil, or_false, reduceCtorEq] at hf
  cases hf
  exact small_everyday

theorem entireVC_nonzero : Nonzero (standardSeed sampleKey) (optionBytes one (unvalued steadyOptions)) (vcBytes (unsignedVC entireVC)) := by
  unfold Nonzero
  decide +kernel

theorem steady_uris : IsUri steadyOptions.id ∧ IsUri steadyOptions.verificationMethod :=
  ⟨isUri_of "urn".toList "p".toList rfl (by decide) (by decide) (by decide),
    isUri_of "did".toList "prople:x#k".toList rfl (by decide) (by decide) (by decide)⟩

/-- `C111_issue_vc`: it is published. -/
theorem whole_issue : ∃ t, Whole.issueVC one steadyTable sampleKey entireVC steadyOptions = some t := by
  have hs := ((C32_vc one_conforms.jcs sampleKey ({ entireVC with proof := none } : VC one) { steadyOptions with proofValue := [] }).1 _).mpr
    ⟨⟨steady_good.1, steady_good.2, steady_good.3⟩, by decide, entireVC_complete, _, multibaseEncode58_spec _, rfl⟩
  obtain ⟨t, ht⟩ := (C24_serialise_iff _).2.1.mpr (show VCComplete ({ entireVC with proof := some { steadyOptions with proofValue := _ } } : VC one)
    from entireVC_complete)
  refine ⟨t, (C111_issue_vc one_conforms one_between steadyTable sampleKey entireVC steadyOptions t).mpr
    ⟨(C106_issue_vc one_conforms steadyTable sampleKey entireVC steadyOptions (steady_key _ rfl) t).mpr
      ⟨⟨_, hs, ht⟩, ⟨_, rfl, steady_zulu⟩, ⟨"k".toList, rfl⟩, fun _ _ => rfl,
        by simp [entireVC, Json.depth, Json.depthMembers, Json.depthList], entireVC_rereads, entireVC_nonzero⟩, ?_, entireVC_undisputed⟩⟩
  exact (C91_vc_canonical one_conforms.jcs _ t ht).mpr ((C91_signed one_conforms.jcs sampleKey ({ entireVC with proof := none } : VC one)
    { steadyOptions with proofValue := [] } _ hs).mpr ⟨entireVC_fields, steady_uris⟩)

/-- `C111_issued`, `C111_vc`, `C111_below`, `C111_wider`, `C111_same`: the whole reader of the other build, whose signature check is
stricter, returns it. -/
example : ∃ t w, Whole.issueVC one steadyTable sampleKey entireVC steadyOptions = some t ∧
    Whole.readVC two steadyTable .assertionMethod (utf8 t) = some w ∧ w.toJcs = .ok t ∧ w.issuer = entireVC.issuer := by
  obtain ⟨t, ht⟩ := whole_issue
  obtain ⟨w, h1, h2, h3, -⟩ := (C111_issued one_conforms two_conforms one_between two_between steadyTable steadyTable
    ⟨fun _ _ h => h, fun _ h => h⟩ sampleKey steadyOptions t).1 _ ht
  exact ⟨t, w, ht, h1, h2, h3⟩

/-- The issuer of C106 publishes `oneVC`, whose context is no URI; the whole issuer does not. -/
example : (∃ t, Portable.issueVC one steadyTable sampleKey oneVC steadyOptions = some t) ∧
    Whole.issueVC one steadyTable sampleKey oneVC steadyOptions = none := by
  refine ⟨steady_issue, ?_⟩
  cases h : Whole.issueVC one steadyTable sampleKey oneVC steadyOptions with
  | none => rfl
  | some t =>
    obtain ⟨signed, w, h1, -⟩ := (whole_issueVC _ _ _ _ _).mp h
    obtain ⟨g1, g2, -⟩ := (C108_sign_vc one_conforms.jcs sampleKey oneVC steadyOptions signed).mp h1
    cases sealed_eq one_conforms.jcs g1
    exact absurd g2.first (by show ¬ ["c".toList].head? = _; decide)

/-- The presentation of it. -/
def entireVP (c : VC one) : VP one :=
  { contexts := ["https://www.w3.org/ns/credentials/v2".toList], types := ["VerifiablePresentation".toList], verifiableCredential := [c],
    proof := none, holder := some "did:prople:x".toList }

theorem entireVP_nonzero : Nonzero (standardSeed sampleKey) (optionBytes one (unvalued steadyOptions))
    (vpBytes (unsignedVP (entireVP (sealedVC sampleKey entireVC steadyOptions)))) := by
  unfold Nonzero
  decide +kernel

theorem issues_entireVP (c : VC one) (o : Proof) (ho : GoodOptions one o) (hp : o.proofPurpose = .assertionMethod)
    (hz : ∃ d, o.created = some d ∧ Zulu d) (hvm : o.verificationMethod = "did:prople:x#k".toList) (hu : IsUri o.id)
    (hin : ∀ c' ∈ [c], c'.credentialSubject.1.depth ≤ 124 ∧ ∃ t w, c'.toJcs = .ok t ∧ SameVC c' w ∧
      Portable.readVC one steadyTable .assertionMethod (utf8 t) = some w) (hf : CredentialFields c) (hd : Undisputed [c])
    (hn : Nonzero (standardSeed sampleKey) (optionBytes one (unvalued o)) (vpBytes (unsignedVP (entireVP c)))) :
    ∃ t, Whole.issueVP one steadyTable sampleKey (entireVP c) o = some t := by
  obtain ⟨s, t, h1, h2⟩ := signs_vp one_conforms.jcs sampleKey (entireVP c) o ho (by rw [hp]; nofun) ⟨nofun, nofun, nofun⟩
  refine ⟨t, (C111_issue_vp one_conforms one_between steadyTable sampleKey (entireVP c) o t).mpr
    ⟨(C106_issue_vp one_conforms one_between steadyTable sampleKey (entireVP c) o (steady_key _ hvm) t).mpr
      ⟨⟨_, h1, h2⟩, hz, ⟨"did:prople:x".toList, "k".toList, rfl, hvm⟩, fun _ _ => rfl, hin, hn⟩, ?_, hd⟩⟩
  refine (C91_vp_canonical one_conforms.jcs _ t h2).mpr ((C91_signed_vp one_conforms.jcs sampleKey { entireVP c with proof := none }
    { o with proofValue := [] } _ h1).mpr ⟨⟨rfl, (fun _ h => nomatch h), by simp [entireVP], ?_, ?_, (fun _ h => nomatch h)⟩, hu, ?_⟩)
  · intro h e
    cases e
    exact isUri_of "did".toList "prople:x".toList rfl (by decide) (by decide) (by decide)
  · intro x hx
    rw [List.mem_singleton.mp hx]
    exact hf
  · show IsUri o.verificationMethod
    rw [hvm]
    exact steady_uris.2

/-- `C111_issue_vp`, `C111_vp`, `C111_inside`: a presentation is published, the other build returns it, and the credential inside by
itself. -/
example : ∃ t w c tc, Whole.issueVP one steadyTable sampleKey (entireVP (sealedVC sampleKey entireVC steadyOptions)) steadyOptions = some t ∧
    Whole.readVP two steadyTable .assertionMethod (utf8 t) = some w ∧ w.verifiableCredential = [c] ∧ c.toJcs = .ok tc ∧
    Whole.readVC two steadyTable .assertionMethod (utf8 tc) = some c := by
  obtain ⟨tc, htc⟩ := whole_issue
  have hp := ((C111_issue_vc one_conforms one_between _ _ _ _ _).mp htc).1
  obtain ⟨signed, _, h1, -⟩ := (whole_issueVC _ _ _ _ _).mp htc
  obtain ⟨g1, g2, g3⟩ := (C108_sign_vc one_conforms.jcs sampleKey entireVC steadyOptions signed).mp h1
  cases sealed_eq one_conforms.jcs g1
  obtain ⟨t, ht⟩ := issues_entireVP _ _ steady_good rfl ⟨_, rfl, steady_zulu⟩ rfl steady_uris.1
    (inside_one one_conforms one_between steadyTable sampleKey entireVC steadyOptions tc hp rfl
      (by simp [entireVC, Json.depth, Json.depthMembers, Json.depthList])) g2 g3 entireVP_nonzero
  obtain ⟨w, h2, -, -, h3⟩ := (C111_issued one_conforms two_conforms one_between two_between steadyTable steadyTable
    ⟨fun _ _ h => h, fun _ h => h⟩ sampleKey steadyOptions t).2 _ ht
  obtain ⟨c, hc⟩ := List.length_eq_one_iff.mp h3
  obtain ⟨tc', h4, h5⟩ := C111_inside two_conforms two_between steadyTable _ _ w h2 c (by rw [hc]; simp)
  exact ⟨t, w, c, tc', ht, h2, hc, h4, h5⟩

end Verif.Props
