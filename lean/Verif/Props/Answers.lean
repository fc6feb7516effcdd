import Verif.Props.Challenge
import Verif.Props.Whole

/-
C112: the questions of C105 together with all the checks of C111: a reader of answers that makes them all, and a holder who
sends an answer only if this reader returns it (core/src/verifiable/proof/integrity.rs `add_proof`, `verify_proof`,
core/src/verifiable/objects/vp.rs).
-/

namespace Verif.Whole
open Verif

/-- Caller's code: the presentation was made for this question and its credentials name the holder. -/
def answers {E : Env} (domain nonce : Bytes) (v : VP E) : Bool :=
  match v.proof, v.holder with
  | some p, some h => decide (p.id = Careful.question domain nonce) && v.verifiableCredential.all (Careful.about h)
  | _, _ => false

/-- Caller's code: reads an answer with the reader of C111. -/
def readAnswer (E : Env) (T : Portable.Table) (purpose : ProofPurpose) (domain nonce bs : Bytes) : Option (VP E) :=
  (readVP E T purpose bs).filter (answers domain nonce)

/-- Caller's code: issues a presentation for a question and sends it if it is read as an answer. -/
def answer (E : Env) (T : Portable.Table) (kp : E.EdKP) (v : VP E) (opts : Proof) (domain nonce : Bytes) : Option Str :=
  (issueVP E T kp v { opts with id := Careful.question domain nonce }).filter fun t =>
    (readAnswer E T opts.proofPurpose domain nonce (utf8Encode t)).isSome

end Verif.Whole

namespace Verif.Spec
open Verif

/-- The proof has the text of the question as identifier, and the subject of every credential is the holder. -/
def ForQuestion {E : Env} (domain nonce : Bytes) (v : VP E) : Prop :=
  (∃ p, v.proof = some p ∧ p.id = "urn:question:".toList ++ hexEncode domain ++ ":".toList ++ hexEncode nonce) ∧
    ∃ h, v.holder = some h ∧ ∀ c ∈ v.verifiableCredential, About h c

end Verif.Spec

namespace Verif.Props
open Verif Spec Portable

theorem answers_iff {E : Env} (domain nonce : Bytes) (v : VP E) :
    Whole.answers domain nonce v = true ↔ ForQuestion domain nonce v := by
  unfold Whole.answers ForQuestion
  rw [question_eq]
  cases hp : v.proof with
  | none => simp
  | some p =>
    cases hh : v.holder with
    | none => simp
    | some h =>
      rw [Bool.and_eq_true, decide_eq_true_iff, List.all_eq_true]
      constructor
      · rintro ⟨h1, h2⟩
        exact ⟨⟨p, rfl, h1⟩, h, rfl, fun c hc => (about_iff _ _).mp (h2 c hc)⟩
      · rintro ⟨⟨p, e, h1⟩, h, e', h2⟩
        cases e
        cases e'
        exact ⟨h1, fun c hc => (about_iff _ _).mpr (h2 c hc)⟩

theorem about_mapNum {N M : Type} (f : N → M) (did : Str) (l : List (Str × Json N)) :
    ("id".toList, Json.str did) ∈ Json.mapNumMembers f l ↔ ("id".toList, Json.str did) ∈ l := by
  induction l with
  | nil => simp [Json.mapNumMembers]
  | cons m l ih =>
    obtain ⟨k, x⟩ := m
    have hx : Json.str did = Json.mapNum f x ↔ Json.str did = x := by cases x <;> simp [Json.mapNum]
    simp only [Json.mapNumMembers, List.mem_cons, Prod.mk.injEq, ih, hx]

/-- C112: the text of a question is a URI, so a proof that has it as identifier is by the data model. -/
theorem C112_uri (domain nonce : Bytes) : IsUri (Careful.question domain nonce) := by
  have digits : ∀ (b : Bytes), ∀ c ∈ hexEncode b, c.isAlphanum = true := by
    intro b c hc
    rcases hexEncode_chars b c hc with ⟨h1, h2⟩ | ⟨h1, h2⟩
    · have : c.isDigit = true := by
        simp only [Char.isDigit, ge_iff_le, Bool.and_eq_true, decide_eq_true_eq, UInt32.le_iff_toNat_le]
        exact ⟨h1, h2⟩
      simp [Char.isAlphanum, this]
    · have : c.isLower = true := by
        simp only [Char.isLower, ge_iff_le, Bool.and_eq_true, decide_eq_true_eq, UInt32.le_iff_toNat_le]
        exact ⟨h1, le_trans h2 (by decide)⟩
      simp [Char.isAlphanum, Char.isAlpha, this]
  rw [← question_eq]
  have e : "urn:question:".toList ++ hexEncode domain ++ ":".toList ++ hexEncode nonce =
      "urn".toList ++ ':' :: ("question:".toList ++ hexEncode domain ++ ":".toList ++ hexEncode nonce) := by simp
  rw [e]
  refine isUri_of _ _ rfl (by decide) (by decide) fun c hc => ?_
  rw [List.mem_append, List.mem_append, List.mem_append] at hc
  rcases hc with ((h | h) | h) | h
  · exact (show ∀ c ∈ "question:".toList, c.isAlphanum = true ∨ c ∈ "-._~:/?#[]@!$&'()*+,;=".toList by decide) c h
  · exact .inl (digits _ c h)
  · exact (show ∀ c ∈ ":".toList, c.isAlphanum = true ∨ c ∈ "-._~:/?#[]@!$&'()*+,;=".toList by decide) c h
  · exact .inl (digits _ c h)

section
variable {E : Env} {seed : E.EdKP → Bytes} {bits : E.F → Double.F64} {parts : E.Multiaddr → List AddrPart}

/-- C112: exactly what the reader of answers returns. -/
theorem C112_read (C : Conforms E seed bits parts) (V : Between E) (T : Table) (purpose : ProofPurpose) (domain nonce bs : Bytes)
    (v : VP E) : Whole.readAnswer E T purpose domain nonce bs = some v ↔ AgreedVP E T purpose bs v ∧ TextIs PresentationModel bs ∧
      Undisputed v.verifiableCredential ∧ ForQuestion domain nonce v := by
  unfold Whole.readAnswer
  rw [filter_iff, answers_iff, C111_vp C V, and_assoc, and_assoc]

/-- C112: what it returns, the reader of C105 returns: so everything shown there of desks, histories and traces holds. -/
theorem C112_below (L : E.JcsLaws) (T : Table) (purpose : ProofPurpose) (domain nonce bs : Bytes) (v : VP E)
    (h : Whole.readAnswer E T purpose domain nonce bs = some v) :
    Careful.readAnswer (policy E T) purpose domain nonce bs = some v ∧ Whole.readVP E T purpose bs = some v := by
  obtain ⟨h1, h2⟩ := (filter_iff _ _ _).mp h
  obtain ⟨h3, h4⟩ := (answers_iff _ _ _).mp h2
  exact ⟨(C105_read L _ _ _ _ _ _).mpr ⟨(C101_vp L _ _ _ _).mp ((C111_below T purpose bs).2 v h1).1, h3, h4⟩, h1⟩

/-- C112: the holder sends exactly what the whole issuer publishes for the question, if the credentials name the holder. -/
theorem C112_answer (C : Conforms E seed bits parts) (V : Between E) (T : Table) (kp : E.EdKP) (v : VP E) (opts : Proof)
    (domain nonce : Bytes) (t : Str) : Whole.answer E T kp v opts domain nonce = some t ↔
      Whole.issueVP E T kp v { opts with id := Careful.question domain nonce } = some t ∧
      ∃ h, v.holder = some h ∧ ∀ c ∈ v.verifiableCredential, About h c := by
  unfold Whole.answer
  rw [filter_iff]
  refine and_congr_right fun hi => ?_
  obtain ⟨signed, w, h1, h2, h3⟩ := (whole_issueVP _ _ _ _ _).mp hi
  have hs := ((C108_sign_vp C.jcs kp v _ signed).mp h1).1
  obtain ⟨-, -, -, text, -, rfl⟩ := ((C32_vp C.jcs kp _ _).1 _).mp hs
  have ha := ((C111_vp C V T _ _ _).mp h3).1
  have hsame := (C29_vp C.jcs _ w ((vp_toJcs_iff C.jcs _ t).mp h2).1 ha.complete).mp
    (h2.trans ((vp_toJcs_iff C.jcs w t).mpr ⟨ha.complete, ha.text⟩).symm)
  have hl : List.Forall₂ SameVC v.verifiableCredential w.verifiableCredential := hsame.credentials
  have hh : v.holder = w.holder := hsame.holder
  have back : ∀ {a b : VC E}, SameVC a b → SameVC b a := fun h => ⟨h.1.symm, h.2.symm, h.3.symm, h.4.symm, h.5.symm, h.6.symm⟩
  rw [Option.isSome_iff_exists]
  constructor
  · rintro ⟨u, hu⟩
    obtain ⟨g1, g2⟩ := (filter_iff _ _ _).mp hu
    have e := h3.symm.trans g1
    cases e
    obtain ⟨-, h, g3, g4⟩ := (answers_iff _ _ _).mp g2
    refine ⟨h, hh.trans g3, fun c hc => ?_⟩
    obtain ⟨d, hd, hcd⟩ := forall₂_left hl hc
    exact Props.About.same (back hcd) (g4 d hd)
  · rintro ⟨h, g3, g4⟩
    refine ⟨w, (filter_iff _ _ _).mpr ⟨h3, (answers_iff _ _ _).mpr ⟨⟨_, hsame.proof.symm, (question_eq domain nonce).symm⟩,
      h, hh.symm.trans g3, fun c hc => ?_⟩⟩⟩
    obtain ⟨d, hd, hcd⟩ := forall₂_right hl hc
    exact Props.About.same hcd (g4 d hd)

end

section
variable {E₁ E₂ : Env} {seed₁ : E₁.EdKP → Bytes} {seed₂ : E₂.EdKP → Bytes} {bits₁ : E₁.F → Double.F64} {bits₂ : E₂.F → Double.F64}
  {parts₁ : E₁.Multiaddr → List AddrPart} {parts₂ : E₂.Multiaddr → List AddrPart}

theorem builds_about (C₁ : Conforms E₁ seed₁ bits₁ parts₁) (C₂ : Conforms E₂ seed₂ bits₂ parts₂) {v₁ : VC E₁} {v₂ : VC E₂}
    (h : SameCredential v₁ v₂) (did : Str) (ha : About did v₁) : About did v₂ := by
  cases (same_vc C₁ C₂ v₁ v₂).mp h
  obtain ⟨kvs, h1, h2⟩ := ha
  refine ⟨_, ?_, (about_mapNum (Num.map (move bits₁ C₂.standard.numbers.bijective)) did kvs).mpr h2⟩
  show v₁.credentialSubject.1.mapNum _ = _
  rw [h1]
  rfl

theorem builds_question (C₁ : Conforms E₁ seed₁ bits₁ parts₁) (C₂ : Conforms E₂ seed₂ bits₂ parts₂) {v₁ : VP E₁} {v₂ : VP E₂}
    (h : SamePresentation v₁ v₂) {domain nonce : Bytes} (hq : ForQuestion domain nonce v₁) : ForQuestion domain nonce v₂ := by
  obtain ⟨⟨p, h1, h2⟩, d, h3, h4⟩ := hq
  refine ⟨⟨p, h.proof.symm.trans h1, h2⟩, d, h.holder.symm.trans h3, fun c hc => ?_⟩
  obtain ⟨b, hb, hbc⟩ := forall₂_right h.credentials hc
  exact builds_about C₁ C₂ hbc d (h4 b hb)

/-- C112: an answer that one build reads, every other reads, also with a wider table. -/
theorem C112_wider (C₁ : Conforms E₁ seed₁ bits₁ parts₁) (C₂ : Conforms E₂ seed₂ bits₂ parts₂) (V₁ : Between E₁) (V₂ : Between E₂)
    (T₁ T₂ : Table) (hT : Wider T₁ T₂) (purpose : ProofPurpose) (domain nonce bs : Bytes) (v₁ : VP E₁)
    (h : Whole.readAnswer E₁ T₁ purpose domain nonce bs = some v₁) :
    ∃ v₂, Whole.readAnswer E₂ T₂ purpose domain nonce bs = some v₂ ∧ SamePresentation v₁ v₂ := by
  obtain ⟨h1, h2⟩ := (filter_iff _ _ _).mp h
  obtain ⟨v₂, g1, g2⟩ := (C111_wider C₁ C₂ V₁ V₂ T₁ T₂ hT purpose bs).2 v₁ h1
  exact ⟨v₂, (filter_iff _ _ _).mpr ⟨g1, (answers_iff _ _ _).mpr (builds_question C₁ C₂ g2 ((answers_iff _ _ _).mp h2))⟩, g2⟩

/-- C112: two builds with one table read the same answer or none. -/
theorem C112_same (C₁ : Conforms E₁ seed₁ bits₁ parts₁) (C₂ : Conforms E₂ seed₂ bits₂ parts₂) (V₁ : Between E₁) (V₂ : Between E₂)
    (T : Table) (purpose : ProofPurpose) (domain nonce bs : Bytes) :
    NoneOrBoth SamePresentation (Whole.readAnswer E₁ T purpose domain nonce bs) (Whole.readAnswer E₂ T purpose domain nonce bs) := by
  have hT : Wider T T := ⟨fun _ _ h => h, fun _ h => h⟩
  cases h₁ : Whole.readAnswer E₁ T purpose domain nonce bs with
  | some v₁ =>
    obtain ⟨v₂, h₂, hs⟩ := C112_wider C₁ C₂ V₁ V₂ T T hT purpose domain nonce bs v₁ h₁
    exact .inr ⟨v₁, v₂, rfl, h₂, hs⟩
  | none =>
    cases h₂ : Whole.readAnswer E₂ T purpose domain nonce bs with
    | none => exact .inl ⟨rfl, rfl⟩
    | some v₂ =>
      obtain ⟨v₁, h, -⟩ := C112_wider C₂ C₁ V₂ V₁ T T hT purpose domain nonce bs v₂ h₂
      rw [h₁] at h
      cases h

/-- C112: bytes answer at most one question of one verifier, in all builds and under all tables. -/
theorem C112_one (C₁ : Conforms E₁ seed₁ bits₁ parts₁) (C₂ : Conforms E₂ seed₂ bits₂ parts₂) (T₁ T₂ : Table)
    (purpose purpose' : ProofPurpose) (d n d' n' bs : Bytes) (v₁ : VP E₁) (v₂ : VP E₂)
    (h₁ : Whole.readAnswer E₁ T₁ purpose d n bs = some v₁) (h₂ : Whole.readAnswer E₂ T₂ purpose' d' n' bs = some v₂) :
    d = d' ∧ n = n' ∧ purpose = purpose' ∧ SamePresentation v₁ v₂ := by
  obtain ⟨h1, q1⟩ := (filter_iff _ _ _).mp h₁
  obtain ⟨h2, q2⟩ := (filter_iff _ _ _).mp h₂
  have s1 := (C101_vp C₁.jcs _ _ _ _).mp ((C111_below T₁ purpose bs).2 v₁ h1).1
  have s2 := (C101_vp C₂.jcs _ _ _ _).mp ((C111_below T₂ purpose' bs).2 v₂ h2).1
  have hs : SamePresentation v₁ v₂ := by
    rcases C92_read_vp C₁ C₂ bs with ⟨_, _, e, -⟩ | ⟨a, b, e1, e2, hs⟩
    · rw [s1.reads] at e; cases e
    · rw [s1.reads] at e1; cases e1
      rw [s2.reads] at e2; cases e2
      exact hs
  obtain ⟨⟨p, hp, hi⟩, -⟩ := (answers_iff _ _ _).mp q1
  obtain ⟨⟨q, hq, hj⟩, -⟩ := (answers_iff _ _ _).mp q2
  obtain ⟨p', _, hp', -, a1⟩ := s1.proof
  obtain ⟨q', _, hq', -, a2⟩ := s2.proof
  rw [hp] at hp'; cases hp'
  rw [hq] at hq'; cases hq'
  have e := hs.proof
  rw [hp, hq] at e
  cases e
  rw [question_eq] at hi hj
  obtain ⟨e1, e2⟩ := C105_question d n d' n' (hi.symm.trans hj)
  exact ⟨e1, e2, a1.aim.symm.trans a2.aim, hs⟩

/-- C112: what the holder sends, the reader of every build returns for just this question. -/
theorem C112_sent (C₁ : Conforms E₁ seed₁ bits₁ parts₁) (C₂ : Conforms E₂ seed₂ bits₂ parts₂) (V₁ : Between E₁) (V₂ : Between E₂)
    (T₁ T₂ : Table) (hT : Wider T₁ T₂) (kp : E₁.EdKP) (v : VP E₁) (opts : Proof) (domain nonce : Bytes) (t : Str)
    (h : Whole.answer E₁ T₁ kp v opts domain nonce = some t) :
    ∃ w, Whole.readAnswer E₂ T₂ opts.proofPurpose domain nonce (utf8 t) = some w ∧ w.toJcs = .ok t ∧ w.holder = v.holder := by
  obtain ⟨h1, h2⟩ := (filter_iff _ _ _).mp h
  obtain ⟨u, hu⟩ := Option.isSome_iff_exists.mp h2
  obtain ⟨w, g1, -⟩ := C112_wider C₁ C₂ V₁ V₂ T₁ T₂ hT _ _ _ _ _ hu
  obtain ⟨w', k1, k2, k3, -⟩ := (C111_issued C₁ C₂ V₁ V₂ T₁ T₂ hT kp _ t).2 v h1
  have e := ((filter_iff _ _ _).mp g1).1
  rw [← utf8_eq] at e
  have e' := e.symm.trans k1
  cases e'
  exact ⟨w, by rw [utf8_eq]; exact g1, k2, k3⟩

end

/-! ### Cases -/

/-- A credential about its subject, the holder. -/
def namingVC : VC one :=
  { entireVC with credentialSubject := ⟨.obj [("id".toList, .str "did:prople:x".toList), ("n".toList, .arr [.num (.float small), .num (.pos 7)])],
      by simp [Json.Sorted, Json.SortedMembers, Json.SortedList, KeysSorted]; decide⟩ }

theorem namingVC_about : About "did:prople:x".toList namingVC := ⟨_, rfl, by simp⟩

theorem naming_issue : ∃ t, Whole.issueVC one steadyTable sampleKey namingVC steadyOptions = some t := by
  have hk : VCComplete namingVC := ⟨nofun, nofun, nofun⟩
  have hs := ((C32_vc one_conforms.jcs sampleKey ({ namingVC with proof := none } : VC one) { steadyOptions with proofValue := [] }).1 _).mpr
    ⟨⟨steady_good.1, steady_good.2, steady_good.3⟩, by decide, hk, _, multibaseEncode58_spec _, rfl⟩
  obtain ⟨t, ht⟩ := (C24_serialise_iff _).2.1.mpr (show VCComplete ({ namingVC with proof := some { steadyOptions with proofValue := _ } } : VC one)
    from hk)
  refine ⟨t, (C111_issue_vc one_conforms one_between steadyTable sampleKey namingVC steadyOptions t).mpr
    ⟨(C106_issue_vc one_conforms steadyTable sampleKey namingVC steadyOptions (steady_key _ rfl) t).mpr
      ⟨⟨_, hs, ht⟩, ⟨_, rfl, steady_zulu⟩, ⟨"k".toList, rfl⟩, fun _ _ => rfl,
        by simp [namingVC, Json.depth, Json.depthMembers, Json.depthList], ?_, ?_⟩, ?_, ?_⟩⟩
  · refine (C80_documents one_conforms.standard.numbers _ fun f hf => ?_).2
    simp only [namingVC, Json.nums, Json.numsMembers, Json.numsList, List.mem_append, List.mem_singleton, List.not_mem_nil, or_false,
      false_or, reduceCtorEq] at hf
    cases hf
    exact small_everyday
  · unfold Nonzero
    decide +kernel
  · exact (C91_vc_canonical one_conforms.jcs _ t ht).mpr ((C91_signed one_conforms.jcs sampleKey ({ namingVC with proof := none } : VC one)
      { steadyOptions with proofValue := [] } _ hs).mpr ⟨⟨rfl, (fun _ h => nomatch h), by decide, entireVC_fields.4, entireVC_fields.5,
        .inl ⟨_, _, rfl⟩, (fun _ h => nomatch h)⟩, steady_uris⟩)
  · exact .inl fun c hc => by
      rw [List.mem_singleton.mp hc]
      simp [namingVC, AllNames, AllNamesMembers, AllNamesElems, Basic]

theorem answers_entireVP (c : VC one) (o : Proof) (d n : Bytes) (t : Str)
    (h : Whole.issueVP one steadyTable sampleKey (entireVP c) { o with id := Careful.question d n } = some t)
    (ha : About "did:prople:x".toList c) : Whole.answer one steadyTable sampleKey (entireVP c) o d n = some t :=
  (C112_answer one_conforms one_between steadyTable sampleKey _ o d n t).mpr
    ⟨h, _, rfl, fun _ hc => by rw [List.mem_singleton.mp hc]; exact ha⟩

theorem naming_nonzero : Nonzero (standardSeed sampleKey)
    (optionBytes one (unvalued { steadyOptions with id := Careful.question [1] [2, 3] }))
    (vpBytes (unsignedVP (entireVP (sealedVC sampleKey namingVC steadyOptions)))) := by
  unfold Nonzero
  decide +kernel

/-- `C112_answer`, `C112_sent`, `C112_read`, `C112_below`, `C112_wider`, `C112_same`, `C112_one`: an answer is sent, the other build reads it as the
answer to this question, and to no other. -/
example : ∃ t w, Whole.answer one steadyTable sampleKey (entireVP (sealedVC sampleKey namingVC steadyOptions)) steadyOptions [1] [2, 3] = some t ∧
    Whole.readAnswer two steadyTable .assertionMethod [1] [2, 3] (utf8 t) = some w ∧
    Whole.readAnswer two steadyTable .assertionMethod [1] [2, 4] (utf8 t) = none := by
  obtain ⟨tc, htc⟩ := naming_issue
  have hp := ((C111_issue_vc one_conforms one_between _ _ _ _ _).mp htc).1
  obtain ⟨signed, _, h1, -⟩ := (whole_issueVC _ _ _ _ _).mp htc
  obtain ⟨g1, g2, g3⟩ := (C108_sign_vc one_conforms.jcs sampleKey namingVC steadyOptions signed).mp h1
  cases sealed_eq one_conforms.jcs g1
  obtain ⟨t, ht⟩ := issues_entireVP _ { steadyOptions with id := Careful.question [1] [2, 3] }
    ⟨steady_good.1, steady_good.2, steady_good.3⟩ rfl ⟨_, rfl, steady_zulu⟩ rfl (C112_uri _ _)
    (inside_one one_conforms one_between steadyTable sampleKey namingVC steadyOptions tc hp rfl
      (by simp [namingVC, Json.depth, Json.depthMembers, Json.depthList])) g2 g3 naming_nonzero
  have hsent := answers_entireVP _ steadyOptions [1] [2, 3] t ht namingVC_about
  obtain ⟨w, h2, -⟩ := C112_sent one_conforms two_conforms one_between two_between steadyTable steadyTable
    ⟨fun _ _ h => h, fun _ h => h⟩ sampleKey _ _ _ _ t hsent
  refine ⟨t, w, hsent, h2, ?_⟩
  cases h : Whole.readAnswer two steadyTable .assertionMethod [1] [2, 4] (utf8 t) with
  | none => rfl
  | some w' =>
    obtain ⟨-, e, -⟩ := C112_one two_conforms two_conforms steadyTable steadyTable _ _ _ _ _ _ _ w w' h2 h
    cases e

/-- `C112_answer`: a presentation of the credential that the whole issuer publishes but that names nobody is not sent. -/
example (t : Str) : Whole.answer one steadyTable sampleKey (entireVP (sealedVC sampleKey entireVC steadyOptions)) steadyOptions [1] [2, 3] ≠ some t := by
  intro h
  obtain ⟨-, d, -, h2⟩ := (C112_answer one_conforms one_between _ _ _ _ _ _ _).mp h
  obtain ⟨kvs, h3, h4⟩ := h2 _ List.mem_cons_self
  cases h3
  simp at h4

end Verif.Props
