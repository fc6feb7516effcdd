import Verif.Props.Endorse

/-
C105: presentations, replays and borrowed credentials.

A proof has no member that names the verifier or the occasion (core/src/verifiable/proof/mod.rs:36-66; the error variants
`InvalidDomainError` and `InvalidChallengeError` of core/src/verifiable/proof/types.rs:93-98 are never returned, C76), and
nothing relates the credentials in a presentation to its holder (core/src/verifiable/vp.rs). The programs `Careful.*`
are callers, not part of /repo: the verifier asks a question, the holder answers with a presentation whose proof has the
question as `id`, which is a signed member.
-/

namespace Verif.Careful
open Verif Props

/-- The text of a question: who asks, and a number used once. -/
def question (domain nonce : Bytes) : Str := "urn:question:".toList ++ hexEncode domain ++ ':' :: hexEncode nonce

/-- The holder answers a question. -/
def answer {E : Env} (kp : E.EdKP) (v : VP E) (opts : Proof) (domain nonce : Bytes) : Except ProofError (VP E) :=
  signVP kp v { opts with id := question domain nonce }

/-- The credential names `did` as its subject. -/
def about {E : Env} (did : Str) (c : VC E) : Bool :=
  match c.credentialSubject.1 with
  | .obj kvs => kvs.any fun m => m.1 == "id".toList && (match m.2 with | .str s => s == did | _ => false)
  | _ => false

/-- Reads an answer: a presentation for the careful reader of C101, made for this question, of the holder's own
credentials. -/
def readAnswer {E : Env} (P : Policy E) (purpose : ProofPurpose) (domain nonce : Bytes) (bs : Bytes) : Option (VP E) :=
  match readVP P purpose bs with
  | none => none
  | some v =>
    match v.proof, v.holder with
    | some p, some h =>
      if p.id = question domain nonce ∧ v.verifiableCredential.all (about h) = true then some v else none
    | _, _ => none

/-- A verifier at work: its name, the questions that are open, and what it has accepted, latest first. -/
structure Desk (E : Env) where
  domain : Bytes
  asked : List Bytes
  accepted : List (Bytes × Bytes × VP E)

/-- What happens at a desk: a question is asked; bytes are received in answer to one. -/
inductive DeskOp (E : Env) where
  | ask (nonce : Bytes)
  | receive (P : Policy E) (purpose : ProofPurpose) (nonce : Bytes) (bs : Bytes)

/-- One step. A question is closed by its first good answer. -/
def Desk.step {E : Env} (d : Desk E) : DeskOp E → Desk E
  | .ask nonce => { d with asked := nonce :: d.asked }
  | .receive P purpose nonce bs =>
    if nonce ∈ d.asked then
      match readAnswer P purpose d.domain nonce bs with
      | none => d
      | some v => { d with asked := d.asked.erase nonce, accepted := (nonce, bs, v) :: d.accepted }
    else d

/-- A history of a new desk. -/
def Desk.run {E : Env} (domain : Bytes) (ops : List (DeskOp E)) : Desk E := ops.foldl Desk.step ⟨domain, [], []⟩

end Verif.Careful

namespace Verif.Spec
open Verif Careful

/-- The subject of the credential has the member `id` with this text. -/
def About {E : Env} (did : Str) (c : VC E) : Prop :=
  ∃ kvs, c.credentialSubject.1 = .obj kvs ∧ ("id".toList, Json.str did) ∈ kvs

/-- The questions asked, in order. -/
def asks {E : Env} : List (DeskOp E) → List Bytes
  | [] => []
  | .ask nonce :: ops => nonce :: asks ops
  | .receive .. :: ops => asks ops

end Verif.Spec

namespace Verif.Props
open Verif Spec Careful

/-! ### C105: what the library and the careful reader leave open -/

/-- C105: members `challenge`, `domain` or `nonce` that a text has in its proof change nothing for the library, whatever they
say. -/
theorem C105_ignored {E : Env} (pub : E.EdPub) (purpose : ProofPurpose) (pre post a b : List (Bytes × Raw))
    (k n : Bytes) (x : Raw) (name : Str) (hm : name ∈ ["challenge", "domain", "nonce"].map String.toList)
    (hk : Spells k "proof".toList) (hn : Spells n name) (bs bs' : Bytes)
    (h : JsonText (.obj (pre ++ (k, .obj (a ++ b)) :: post)) bs)
    (h' : JsonText (.obj (pre ++ (k, .obj (a ++ (n, x) :: b)) :: post)) bs') :
    Alike (verify E (VP E) pub bs purpose) (verify E (VP E) pub bs' purpose) := by
  refine C61_ignored_vp h h' (.proof pre post hk (Adds.mk a b x hn ?_)) pub purpose
  simp only [List.map_cons, List.map_nil, List.mem_cons, List.not_mem_nil, or_false] at hm
  rcases hm with rfl | rfl | rfl <;> decide

/-- C105: a presentation one verifier accepts is accepted by every other that finds the same keys and for which the expiry
dates have not passed, as often as it is sent. -/
theorem C105_replay {E : Env} (L : E.JcsLaws) (P P' : Policy E) (purpose : ProofPurpose) (bs : Bytes) (v : VP E)
    (h : readVP P purpose bs = some v) (hk : P'.keyOf = P.keyOf)
    (hx : ∀ p, v.proof = some p ∨ (∃ c ∈ v.verifiableCredential, c.proof = some p) → ∀ e, p.expires = some e → P'.expired e = false) :
    readVP P' purpose bs = some v := by
  obtain ⟨h1, h2, h3, ⟨p, hd, hp, hh, hs⟩, h5⟩ := (C101_vp L P purpose bs v).mp h
  refine (C101_vp L P' purpose bs v).mpr ⟨h1, h2, h3, ⟨p, hd, hp, hh, hs.1, hs.2, hs.3, hx p (.inl hp), hs.5, ?_⟩, ?_⟩
  · rw [hk]; exact hs.6
  · intro c hc
    obtain ⟨g1, g2, g3, q, hq, gs⟩ := h5 c hc
    exact ⟨g1, g2, g3, q, hq, gs.1, gs.2, gs.3, hx q (.inr ⟨c, hc, hq⟩), gs.5, by rw [hk]; exact gs.6⟩

/-- C105: whoever has the text of a credential that is accepted can present it as holder: the careful reader of C101 returns
such a presentation, whoever the subject is. -/
theorem C105_borrowed {E : Env} (L : E.JcsLaws) (K : E.EdLaws) (P : Policy E) (c : VC E)
    (hc : readVC P .assertionMethod (vcBytes c) = some c) (hd : c.credentialSubject.1.depth ≤ 124)
    (kp : E.EdKP) (holder fragment : Str) (opts : Proof) (ho : GoodOptions E opts) (hp : opts.proofPurpose ≠ .unknown)
    (hm : opts.verificationMethod = holder ++ '#' :: fragment) (hk : P.keyOf opts.verificationMethod = some (E.edPub kp))
    (hx : ∀ e, opts.expires = some e → P.expired e = false) (contexts types : List Str) (h1 : contexts ≠ []) (h2 : types ≠ []) :
    ∃ signed t w, signVP kp ⟨contexts, types, [c], none, some holder⟩ opts = .ok signed ∧ signed.toJcs = .ok t ∧
      SameVP signed w ∧ readVP P opts.proofPurpose (utf8 t) = some w := by
  obtain ⟨s, hs⟩ := ((C101_sign_iff L kp opts).2 ⟨contexts, types, [c], none, some holder⟩).mpr
    ⟨_, ((C32_vp L kp _ opts).1 _).mpr ⟨ho, hp, ⟨h1, h2, by simp⟩, _, multibaseEncode58_spec _, rfl⟩⟩
  have hs' := (C101_vc L P _ _ _).mp hc
  obtain ⟨tc, htc⟩ := (C24_serialise_iff c).2.1.mpr hs'.complete
  have etc : utf8 tc = vcBytes c := by rw [utf8_eq]; exact ((vc_toJcs_iff L c tc).mp htc).2
  obtain ⟨t, w, a1, a2, a3⟩ := C101_honest_vp L K P kp _ opts s hs holder fragment rfl hm hk hx
    (by intro x hx; rw [List.mem_singleton.mp hx]; exact hd)
    (by intro x hx; rw [List.mem_singleton.mp hx]
        exact ⟨tc, c, htc, ⟨rfl, rfl, rfl, rfl, rfl, rfl⟩, by rw [etc]; exact hc⟩)
  exact ⟨s, t, w, hs, a1, a2, a3⟩

/-! ### C105: questions and answers -/

theorem hexEncode_no_colon (b : Bytes) : ':' ∉ hexEncode b := by
  intro h
  have := hexEncode_chars b _ h
  revert this; decide

theorem question_eq (domain nonce : Bytes) :
    "urn:question:".toList ++ hexEncode domain ++ ":".toList ++ hexEncode nonce = question domain nonce := by
  unfold question
  rw [List.append_assoc]
  rfl

/-- C105: a question has one domain and one nonce. -/
theorem C105_question (d n d' n' : Bytes) (h : question d n = question d' n') : d = d' ∧ n = n' := by
  unfold question at h
  rw [List.append_assoc, List.append_assoc] at h
  have h := List.append_cancel_left h
  have key : ∀ (a b x y : Str), ':' ∉ a → ':' ∉ b → a ++ ':' :: x = b ++ ':' :: y → a = b ∧ x = y := by
    intro a
    induction a with
    | nil =>
      intro b x y _ hb e
      cases b with
      | nil => simpa using e
      | cons c b => simp only [List.nil_append, List.cons_append, List.cons.injEq] at e; exact absurd (by simp [← e.1]) hb
    | cons c a ih =>
      intro b x y ha hb e
      cases b with
      | nil => simp only [List.nil_append, List.cons_append, List.cons.injEq] at e; exact absurd (by simp [e.1]) ha
      | cons c' b =>
        simp only [List.cons_append, List.cons.injEq] at e
        obtain ⟨h1, h2⟩ := ih b x y (fun m => ha (by simp [m])) (fun m => hb (by simp [m])) e.2
        exact ⟨by rw [e.1, h1], h2⟩
  obtain ⟨h1, h2⟩ := key _ _ _ _ (hexEncode_no_colon d) (hexEncode_no_colon d') h
  exact ⟨hexEncode_injective h1, hexEncode_injective h2⟩

theorem about_iff {E : Env} (did : Str) (c : VC E) : about did c = true ↔ About did c := by
  unfold about About
  cases c.credentialSubject.1 with
  | obj kvs =>
    simp only [List.any_eq_true, Bool.and_eq_true, beq_iff_eq, Json.obj.injEq, exists_eq_left']
    constructor
    · rintro ⟨⟨k, x⟩, hm, rfl, hx⟩
      cases x with
      | str s => simp only [beq_iff_eq] at hx; subst hx; exact hm
      | _ => simp at hx
    · intro h
      exact ⟨_, h, rfl, by simp⟩
  | _ => simp

theorem About.same {E : Env} {did : Str} {a b : VC E} (hs : SameVC a b) (h : About did a) : About did b := by
  obtain ⟨kvs, h1, h2⟩ := h
  have e := hs.subject
  unfold About
  rw [h1] at e
  cases hb : b.credentialSubject.1 with
  | obj kvs' =>
    rw [hb] at e
    simp only [Json.mapNum, Json.obj.injEq] at e
    refine ⟨kvs', rfl, ?_⟩
    have key : ∀ l : List (Str × Json (Num E.F)), ("id".toList, Json.str did) ∈ Json.mapNumMembers E.jcsNum l ↔
        ("id".toList, Json.str did) ∈ l := by
      intro l
      induction l with
      | nil => simp [Json.mapNumMembers]
      | cons m l ih =>
        obtain ⟨k, x⟩ := m
        have hx : Json.str did = Json.mapNum E.jcsNum x ↔ Json.str did = x := by cases x <;> simp [Json.mapNum]
        simp only [Json.mapNumMembers, List.mem_cons, Prod.mk.injEq, ih, hx]
    rw [← key, ← e, key]
    exact h2
  | _ => rw [hb] at e; simp [Json.mapNum] at e

/-- C105: the reader of answers returns a presentation exactly if it is sound by C101, its proof is for just this question,
and all credentials name the holder as subject. -/
theorem C105_read {E : Env} (L : E.JcsLaws) (P : Policy E) (purpose : ProofPurpose) (domain nonce bs : Bytes) (v : VP E) :
    readAnswer P purpose domain nonce bs = some v ↔ SoundVP E P purpose bs v ∧
      (∃ p, v.proof = some p ∧ p.id = "urn:question:".toList ++ hexEncode domain ++ ":".toList ++ hexEncode nonce) ∧
      ∃ h, v.holder = some h ∧ ∀ c ∈ v.verifiableCredential, About h c := by
  rw [question_eq, ← C101_vp L]
  unfold readAnswer
  cases hr : readVP P purpose bs with
  | none => simp
  | some w =>
    simp only [Option.some.injEq]
    constructor
    · intro h
      split at h
      · rename_i p hd hp hh
        split at h
        · rename_i hc
          cases h
          exact ⟨rfl, ⟨p, hp, hc.1⟩, hd, hh, fun c hm => (about_iff _ _).mp (List.all_eq_true.mp hc.2 c hm)⟩
        · cases h
      · cases h
    · rintro ⟨rfl, ⟨p, hp, hi⟩, hd, hh, ha⟩
      rw [hp, hh]
      simp only
      rw [if_pos ⟨hi, List.all_eq_true.mpr fun c hm => (about_iff _ _).mpr (ha c hm)⟩]

/-- C105: bytes answer at most one question of one verifier, whatever the policies. -/
theorem C105_one {E : Env} (L : E.JcsLaws) (P P' : Policy E) (purpose purpose' : ProofPurpose) (d n d' n' bs : Bytes) (v v' : VP E)
    (h : readAnswer P purpose d n bs = some v) (h' : readAnswer P' purpose' d' n' bs = some v') : d = d' ∧ n = n' ∧ v = v' := by
  obtain ⟨s1, ⟨p, hp, hi⟩, -⟩ := (C105_read L P purpose d n bs v).mp h
  obtain ⟨s2, ⟨q, hq, hj⟩, -⟩ := (C105_read L P' purpose' d' n' bs v').mp h'
  have e := s1.reads.symm.trans s2.reads
  cases e
  rw [hp] at hq
  cases hq
  obtain ⟨e1, e2⟩ := C105_question d n d' n' (by rw [hi, question_eq, question_eq] at hj; exact hj)
  exact ⟨e1, e2, rfl⟩

/-- C105: honest answers are read: signed for the question, of credentials the reader of C101 returns and that name the
holder. -/
theorem C105_honest {E : Env} (L : E.JcsLaws) (K : E.EdLaws) (P : Policy E) (kp : E.EdKP) (v : VP E) (opts : Proof)
    (domain nonce : Bytes) (hv : VPComplete v) (hg : GoodOptions E opts) (hpp : opts.proofPurpose ≠ .unknown)
    (holder fragment : Str) (hh : v.holder = some holder)
    (ho : opts.verificationMethod = holder ++ '#' :: fragment)
    (hk : P.keyOf opts.verificationMethod = some (E.edPub kp)) (hx : ∀ e, opts.expires = some e → P.expired e = false)
    (hd : ∀ c ∈ v.verifiableCredential, c.credentialSubject.1.depth ≤ 124)
    (hc : ∀ c ∈ v.verifiableCredential, About holder c ∧ ∃ t w, c.toJcs = .ok t ∧ SameVC c w ∧
      readVC P .assertionMethod (utf8 t) = some w) :
    ∃ signed t w, answer kp v opts domain nonce = .ok signed ∧ signed.toJcs = .ok t ∧ SameVP signed w ∧
      readAnswer P opts.proofPurpose domain nonce (utf8 t) = some w := by
  obtain ⟨s, hs⟩ := ((C101_sign_iff L kp { opts with id := question domain nonce }).2 v).mpr
    ⟨_, ((C32_vp L kp _ { opts with id := question domain nonce }).1 _).mpr
      ⟨⟨hg.1, hg.2, hg.3⟩, hpp, hv, _, multibaseEncode58_spec _, rfl⟩⟩
  obtain ⟨t, w, a1, a2, a3⟩ := C101_honest_vp L K P kp v { opts with id := question domain nonce } s hs holder fragment hh ho hk hx hd
    (fun c hm => (hc c hm).2)
  refine ⟨s, t, w, hs, a1, a2, (C105_read L P _ _ _ _ _).mpr ⟨(C101_vp L P _ _ _).mp a3, ?_, ?_⟩⟩
  · obtain ⟨-, -, -, text, -, rfl⟩ := ((C32_vp L kp _ _).1 _).mp hs
    exact ⟨_, a2.proof.symm, (question_eq domain nonce).symm⟩
  · obtain ⟨-, -, -, text, -, rfl⟩ := ((C32_vp L kp _ _).1 _).mp hs
    refine ⟨holder, a2.holder.symm.trans hh, ?_⟩
    have hl := a2.credentials
    change List.Forall₂ SameVC v.verifiableCredential w.verifiableCredential at hl
    have hall : ∀ c ∈ v.verifiableCredential, About holder c := fun c hm => (hc c hm).1
    clear * - hl hall
    generalize v.verifiableCredential = l at hl hall
    generalize w.verifiableCredential = m at hl
    induction hl with
    | nil => simp
    | @cons a b l m hab hlm ih =>
      intro c hm
      rcases List.mem_cons.mp hm with rfl | hm
      · exact Props.About.same hab (hall a (by simp))
      · exact ih (fun c hc => hall c (by simp [hc])) c hm

/-! ### C105: a verifier at work -/

theorem desk_domain {E : Env} (d : Desk E) (ops : List (DeskOp E)) : (ops.foldl Desk.step d).domain = d.domain := by
  induction ops generalizing d with
  | nil => rfl
  | cons o ops ih =>
    rw [List.foldl_cons, ih]
    cases o with
    | ask n => rfl
    | receive P purpose n bs =>
      simp only [Desk.step]
      split
      · split <;> rfl
      · rfl

theorem asks_append {E : Env} (a b : List (DeskOp E)) : asks (a ++ b) = asks a ++ asks b := by
  induction a with
  | nil => rfl
  | cons o a ih => cases o <;> simp [asks, ih]

theorem desk_count {E : Env} (domain : Bytes) (ops : List (DeskOp E)) (nonce : Bytes) :
    (Desk.run domain ops).asked.count nonce + ((Desk.run domain ops).accepted.map (·.1)).count nonce = (asks ops).count nonce := by
  induction ops using List.reverseRecOn with
  | nil => rfl
  | append_singleton ops o ih =>
    have hr : Desk.run domain (ops ++ [o]) = (Desk.run domain ops).step o := by
      unfold Desk.run; rw [List.foldl_append]; rfl
    rw [hr, asks_append, List.count_append]
    generalize Desk.run domain ops = d at ih
    cases o with
    | ask m => simp only [Desk.step, asks, List.count_cons, List.count_nil]; omega
    | receive P purpose m bs =>
      simp only [asks, List.count_nil, Nat.add_zero]
      unfold Desk.step
      simp only
      split
      · rename_i hm
        split
        · exact ih
        · have hpos := List.count_pos_iff.mpr hm
          simp only [List.map_cons, List.count_cons, List.count_erase]
          by_cases e : m = nonce
          · subst e; simp only [beq_self_eq_true, if_true]; omega
          · simp only [beq_iff_eq, e, if_false]; omega
      · exact ih

/-- C105: what one message does, after any history: it is accepted exactly if it is a good answer to the question it names, and
that question was asked more often than it was answered. -/
theorem C105_step {E : Env} (domain : Bytes) (ops : List (DeskOp E)) (P : Policy E) (purpose : ProofPurpose) (nonce bs : Bytes) :
    (∀ v, (Desk.run domain (ops ++ [.receive P purpose nonce bs])).accepted = (nonce, bs, v) :: (Desk.run domain ops).accepted ↔
      readAnswer P purpose domain nonce bs = some v ∧
        ((Desk.run domain ops).accepted.map (·.1)).count nonce < (asks ops).count nonce) ∧
    ((∃ v, (Desk.run domain (ops ++ [.receive P purpose nonce bs])).accepted = (nonce, bs, v) :: (Desk.run domain ops).accepted) ∨
      Desk.run domain (ops ++ [.receive P purpose nonce bs]) = Desk.run domain ops) := by
  have hc := desk_count domain ops nonce
  have hd : (Desk.run domain ops).domain = domain := desk_domain _ _
  have hr : Desk.run domain (ops ++ [.receive P purpose nonce bs]) = (Desk.run domain ops).step (.receive P purpose nonce bs) := by
    unfold Desk.run; rw [List.foldl_append]; rfl
  rw [hr]
  generalize Desk.run domain ops = d at hc hd
  have ne : ∀ x, d.accepted ≠ x :: d.accepted := fun x e => by simpa using congrArg List.length e
  simp only [Desk.step, hd]
  by_cases hm : nonce ∈ d.asked
  · have hpos := List.count_pos_iff.mpr hm
    simp only [if_pos hm]
    cases hv : readAnswer P purpose domain nonce bs with
    | none => exact ⟨fun v => ⟨fun e => absurd e (ne _), fun e => by cases e.1⟩, .inr rfl⟩
    | some w =>
      refine ⟨fun v => ⟨fun e => ?_, fun e => ?_⟩, .inl ⟨w, rfl⟩⟩
      · simp only [List.cons.injEq, Prod.mk.injEq, true_and, and_true] at e
        exact ⟨by rw [e], by omega⟩
      · rw [Option.some.inj e.1]
  · have h0 := List.count_eq_zero.mpr hm
    simp only [if_neg hm]
    exact ⟨fun v => ⟨fun e => absurd e (ne _), fun e => by omega⟩, .inr trivial⟩

/-- C105: in every history, no question is answered more often than it was asked, and all that was accepted are good answers
to questions asked before. -/
theorem C105_history {E : Env} (domain : Bytes) (ops : List (DeskOp E)) :
    (∀ nonce, ((Desk.run domain ops).accepted.map (·.1)).count nonce ≤ (asks ops).count nonce) ∧
    ∀ nonce bs v, (nonce, bs, v) ∈ (Desk.run domain ops).accepted →
      ∃ pre P purpose post, ops = pre ++ .receive P purpose nonce bs :: post ∧ nonce ∈ asks pre ∧
        readAnswer P purpose domain nonce bs = some v := by
  refine ⟨fun n => by have := desk_count domain ops n; omega, ?_⟩
  intro nonce bs v
  induction ops using List.reverseRecOn with
  | nil => intro h; cases h
  | append_singleton ops o ih =>
    intro h
    have old : (nonce, bs, v) ∈ (Desk.run domain ops).accepted → ∃ pre P purpose post,
        ops ++ [o] = pre ++ .receive P purpose nonce bs :: post ∧ nonce ∈ asks pre ∧ readAnswer P purpose domain nonce bs = some v := by
      intro h
      obtain ⟨pre, P, purpose, post, h1, h2, h3⟩ := ih h
      exact ⟨pre, P, purpose, post ++ [o], by rw [h1]; simp, h2, h3⟩
    cases o with
    | ask n =>
      apply old
      unfold Desk.run at h ⊢
      rw [List.foldl_append] at h
      exact h
    | receive P purpose n b =>
      obtain ⟨h1, ⟨w, h2⟩ | h2⟩ := C105_step domain ops P purpose n b
      · obtain ⟨g1, g2⟩ := (h1 w).mp h2
        rw [h2] at h
        rcases List.mem_cons.mp h with e | h
        · cases e
          exact ⟨ops, P, purpose, [], rfl, List.count_pos_iff.mp (by omega), g1⟩
        · exact old h
      · rw [h2] at h
        exact old h

/-- C105: if every question is asked once, every question and every text is accepted at most once. -/
theorem C105_once {E : Env} (L : E.JcsLaws) (domain : Bytes) (ops : List (DeskOp E)) (h : (asks ops).Nodup) :
    ((Desk.run domain ops).accepted.map (·.1)).Nodup ∧ ((Desk.run domain ops).accepted.map (·.2.1)).Nodup := by
  have h1 : ((Desk.run domain ops).accepted.map (·.1)).Nodup := by
    rw [List.nodup_iff_count_le_one]
    intro n
    exact ((C105_history domain ops).1 n).trans (List.nodup_iff_count_le_one.mp h n)
  refine ⟨h1, ?_⟩
  have h2 := (C105_history domain ops).2
  generalize (Desk.run domain ops).accepted = l at h1 h2
  rw [List.Nodup, List.pairwise_map] at h1 ⊢
  refine h1.imp_of_mem fun {a b} ha hb hab e => hab ?_
  obtain ⟨n, x, v⟩ := a
  obtain ⟨n', x', v'⟩ := b
  simp only at e
  subst e
  obtain ⟨-, P, p, -, -, -, g⟩ := h2 _ _ _ ha
  obtain ⟨-, P', p', -, -, -, g'⟩ := h2 _ _ _ hb
  exact (C105_one L P P' p p' domain n domain n' x v v' g g').2.1

/-- C105: verifiers with different names never accept the same text. -/
theorem C105_elsewhere {E : Env} (L : E.JcsLaws) (domain domain' : Bytes) (hne : domain ≠ domain') (ops ops' : List (DeskOp E))
    (n n' bs : Bytes) (v v' : VP E) (h : (n, bs, v) ∈ (Desk.run domain ops).accepted) :
    (n', bs, v') ∉ (Desk.run domain' ops').accepted := by
  intro h'
  obtain ⟨-, P, p, -, -, -, g⟩ := (C105_history domain ops).2 _ _ _ h
  obtain ⟨-, P', p', -, -, -, g'⟩ := (C105_history domain' ops').2 _ _ _ h'
  exact hne (C105_one L P P' p p' domain n domain' n' bs v v' g g').1

/-! ### C105: agreement with the holder -/

/-- Event `k`, before event `n`: the key behind the public key, which party `j` endorsed before as one of its own, signed this
presentation for this question. -/
def AnsweredAt {E : Env} {J : Type} (tr : List (Deed E J)) (n k : Nat) (j : J) (holder : Str) (domain nonce : Bytes) (w : VP E) : Prop :=
  ∃ q pub s j' s' v opts out, w.proof = some q ∧ Vouched tr n j holder q.verificationMethod pub s ∧
    k < n ∧ tr[k]? = some (.use j' s' (.vp v opts)) ∧ E.edPub (E.edGenerate s'.ed) = pub ∧
    opts.id = "urn:question:".toList ++ hexEncode domain ++ ":".toList ++ hexEncode nonce ∧
    sign E (VP E) (E.edGenerate s'.ed) v opts = .ok out ∧ SameVP v (unsignedVP w) ∧ opts = unvalued q

/-- C105: starting from nothing but the DID of the holder, in every interleaving: an answer that is read was signed for just
this question by the holder's key; not before the question, if nobody signed for it earlier; and the credentials in it are
about the holder, issued by their issuers. Or the cryptography is broken, or a key signed just this message as raw bytes. -/
theorem C105_agreement {E : Env} {J : Type} (H : E.HashLaws) (L : E.JcsLaws) (N : E.NumLaws) (K : E.EdLaws) (did : J → DID E)
    (tr : List (Deed E J)) (n : Nat) (store : List Endorsed) (bs : Bytes) (aim : ProofPurpose)
    (hn : tr[n]? = some (.read store bs aim)) (expired : Str → Bool) (domain nonce : Bytes) (w : VP E)
    (h : readAnswer (anchored expired store) aim domain nonce bs = some w)
    (asked : Nat) (hf : ∀ k j s v opts, k < asked → tr[k]? = some (Deed.use j s (.vp v opts)) →
      opts.id ≠ "urn:question:".toList ++ hexEncode domain ++ ":".toList ++ hexEncode nonce) :
    ∃ holder, w.holder = some holder ∧
      (∀ j, Owns (did j) holder → (∃ k, asked ≤ k ∧ AnsweredAt tr n k j holder domain nonce w) ∨
        (∃ b ∈ store, Cheated did tr n j b) ∨
        ∃ q pub, w.proof = some q ∧ keyOf E store q.verificationMethod = some pub ∧
          Stolen tr n pub (optionBytes E (unvalued q)) (vpBytes (unsignedVP w)) q.proofValue) ∧
      ∀ c ∈ w.verifiableCredential, About holder c ∧ ∀ j, Owns (did j) c.issuer →
        IssuedBy tr n j c.issuer c ∨ (∃ b ∈ store, Cheated did tr n j b) ∨
        ∃ q pub, c.proof = some q ∧ keyOf E store q.verificationMethod = some pub ∧
          Stolen tr n pub (optionBytes E (unvalued q)) (vcBytes (unsignedVC c)) q.proofValue := by
  obtain ⟨h1, ⟨p, hp, hid⟩, holder, hh, ha⟩ := (C105_read L _ _ _ _ _ _).mp h
  obtain ⟨⟨holder', hh', g1⟩, g2⟩ := C102_vp H L N K did tr n store bs aim hn expired w ((C101_vp L _ _ _ _).mpr h1)
  rw [hh] at hh'
  cases hh'
  refine ⟨holder, hh, fun j ho => ?_, fun c hc => ⟨ha c hc, g2 c hc⟩⟩
  rcases g1 j ho with ⟨q, pub, s, j', s', v, opts, out, e1, e2, ⟨k, e3, e4, e5⟩, e6, e7, e8⟩ | hx
  · left
    have eid : opts.id = "urn:question:".toList ++ hexEncode domain ++ ":".toList ++ hexEncode nonce := by
      rw [hp] at e1
      cases e1
      rw [e8, ← hid]
      rfl
    refine ⟨k, ?_, q, pub, s, j', s', v, opts, out, e1, e2, e3, e4, e5, eid, e6, e7, e8⟩
    by_contra hlt
    exact hf k j' s' v opts (by omega) e4 eid
  · exact .inr hx

/-- C105: answers to different questions, or to the questions of different verifiers, come from different events: nothing is
accepted twice for one use of the key. -/
theorem C105_injective {E : Env} {J : Type} (tr : List (Deed E J)) (n n' k k' : Nat) (j j' : J) (holder holder' : Str)
    (domain nonce domain' nonce' : Bytes) (w w' : VP E) (h : AnsweredAt tr n k j holder domain nonce w)
    (h' : AnsweredAt tr n' k' j' holder' domain' nonce' w') (hne : (domain, nonce) ≠ (domain', nonce')) : k ≠ k' := by
  rintro rfl
  obtain ⟨_, _, _, _, _, _, opts, _, _, _, _, e1, _, e2, _⟩ := h
  obtain ⟨_, _, _, _, _, _, opts', _, _, _, _, e1', _, e2', _⟩ := h'
  rw [e1] at e1'
  cases e1'
  rw [e2, question_eq, question_eq] at e2'
  obtain ⟨rfl, rfl⟩ := C105_question _ _ _ _ e2'
  exact hne rfl

/-- C105: so it works from the DID alone: the answer signed with the authentication key of an endorsed document is read by
whoever has the bundle. -/
theorem C105_complete {E : Env} (L : E.JcsLaws) (N : E.NumLaws) (K : E.EdLaws) (d : DID E) (i : Identity E)
    (hi : d.identity = .ok i) (ops : List (IdOp E)) (b : Endorsed) (hb : endorse d (ops.foldl IdOp.apply i) = some b)
    (pre post : List Endorsed)
    (hpre : ∀ x ∈ pre, ∀ pub hex payload, E.edPubOfBytes x.key = some pub → ¬ IsDidOf E pub hex payload i.value)
    (s : MethodSeed E) (hs : firstAuth ops = some s) (v : VP E) (opts : Proof) (domain nonce : Bytes) (hv : VPComplete v)
    (hholder : v.holder = some i.value) (hopts : GoodOptions E opts) (hp : opts.proofPurpose ≠ .unknown)
    (hm : opts.verificationMethod = i.value ++ "#key-auth-verification".toList) (expired : Str → Bool)
    (hx : ∀ e, opts.expires = some e → expired e = false)
    (hd : ∀ c ∈ v.verifiableCredential, c.credentialSubject.1.depth ≤ 124)
    (hc : ∀ c ∈ v.verifiableCredential, About i.value c ∧ ∃ t w, c.toJcs = .ok t ∧ SameVC c w ∧
      readVC (anchored expired (pre ++ b :: post)) .assertionMethod (utf8 t) = some w) :
    ∃ signed t w, answer (E.edGenerate s.ed) v opts domain nonce = .ok signed ∧ signed.toJcs = .ok t ∧ SameVP signed w ∧
      readAnswer (anchored expired (pre ++ b :: post)) opts.proofPurpose domain nonce (utf8 t) = some w :=
  C105_honest L K (anchored expired (pre ++ b :: post)) (E.edGenerate s.ed) v opts domain nonce hv hopts hp i.value
    "key-auth-verification".toList hholder (by exact hm)
    (by rw [hm]; exact (C102_found N K d i hi ops b hb pre post hpre).1 s hs) hx hd hc

/-! ### Cases -/

/-- A subject. -/
def subjectOf (did : Str) : Value Toy.env :=
  ⟨.obj [("id".toList, .str did), ("n".toList, .num (.pos 5))], by simp [Json.Sorted, Json.SortedMembers, KeysSorted, strLt]⟩

/-- An account with the sample calls answers a question with a credential it issued to itself (`C105_complete`), and the
answer is read (`C105_read`, `C105_agreement`, `C105_one`, `C105_replay`). -/
theorem toy_answer (d : DID Toy.env) (i : Identity Toy.env) (hi : d.identity = .ok i) (ops : List (IdOp Toy.env))
    (s s' : MethodSeed Toy.env) (hs : firstAssertion ops = some s) (hs' : firstAuth ops = some s') (domain nonce : Bytes) :
    ∃ (b : Endorsed) (bs : Bytes) (w : VP Toy.env), w.holder = some i.value ∧ w.verifiableCredential ≠ [] ∧
      readAnswer (anchored (fun _ => true) [b]) .assertionMethod domain nonce bs = some w := by
  obtain ⟨b, hb, _⟩ := endorse_some d i hi ops
  have hg : ∀ m : Str, GoodOptions Toy.env { toyProof with verificationMethod := m } :=
    fun m => ⟨toyProof_good.1, toyProof_good.2, toyProof_good.3⟩
  obtain ⟨c, t, w, h1, h2, h3, h4⟩ := C102_complete_vc Toy.jcsLaws Toy.numLaws Toy.edLaws d i hi ops b hb [] [] (by simp) s hs
    { toySigned with issuer := i.value, credentialSubject := subjectOf i.value }
    { toyProof with verificationMethod := i.value ++ "#key-assertion-verification".toList }
    ⟨toySigned_complete.1, toySigned_complete.2.1, by simp [subjectOf]⟩ rfl (hg _)
    (show toyProof.proofPurpose ≠ .unknown by decide) rfl (fun _ => true) (by intro e h; cases h)
    (by simp [subjectOf, Json.depth, Json.depthMembers]) (toy_rereads _)
  unfold signVC at h1
  obtain ⟨hd, ha⟩ : c.credentialSubject.1.depth ≤ 124 ∧ About i.value c := by
    obtain ⟨_, _, _, text, _, rfl⟩ := ((C32_vc Toy.jcsLaws _ _ _).1 _).mp h1
    exact ⟨by simp [subjectOf, Json.depth, Json.depthMembers], _, rfl, by simp⟩
  obtain ⟨p, t', w', a1, a2, a3, a4⟩ := C105_complete Toy.jcsLaws Toy.numLaws Toy.edLaws d i hi ops b hb [] [] (by simp) s' hs'
    ⟨["urn:c".toList], ["P".toList], [c], none, some i.value⟩
    { toyProof with verificationMethod := i.value ++ "#key-auth-verification".toList } domain nonce
    ⟨by simp, by simp, by simp⟩ rfl (hg _) (show toyProof.proofPurpose ≠ .unknown by decide) rfl (fun _ => true) (by intro e h; cases h)
    (by intro x hx; rw [List.mem_singleton.mp hx]; exact hd)
    (by intro x hx; rw [List.mem_singleton.mp hx]; exact ⟨ha, t, w, h2, h3, h4⟩)
  refine ⟨b, _, w', ?_, ?_, a4⟩
  · obtain ⟨_, hp, h, hh, _⟩ := (C105_read Toy.jcsLaws _ _ _ _ _ _).mp a4
    unfold answer signVP at a1
    obtain ⟨_, _, _, text, _, rfl⟩ := ((C32_vp Toy.jcsLaws _ _ _).1 _).mp a1
    exact a3.holder.symm
  · exact ((C105_read Toy.jcsLaws _ _ _ _ _ _).mp a4).1.complete.2.2

/-- `C105_agreement`: the account of key 3 endorses its document, issues a credential, signs, after the question at time 2, and
its answer is read. -/
example (u : KeyUse Toy.env) (v : VC Toy.env) (o : Proof) : ∃ (s s' : MethodSeed Toy.env) (b : Endorsed) (bs : Bytes) (w : VP Toy.env)
    (tr : List (Deed Toy.env Unit)), tr = [.endorse () toyOps, .use () s (.vc v o), .use () s' u, .read [b] bs .assertionMethod] ∧
    tr[3]? = some (.read [b] bs .assertionMethod) ∧ readAnswer (anchored (fun _ => true) [b]) .assertionMethod [1] [2] bs = some w ∧
    (∀ k j x y opts, k < 2 → tr[k]? = some (Deed.use j x (.vp y opts)) → opts.id ≠ "urn:question:".toList ++ hexEncode [1] ++ ":".toList ++ hexEncode [2]) ∧
    Owns (DID.new Toy.env (3 : UInt8)) (didOf Toy.env (3 : UInt8)) ∧ w.holder = some (didOf Toy.env (3 : UInt8)) := by
  obtain ⟨s, hs⟩ : ∃ s, firstAssertion toyOps = some s := ⟨_, rfl⟩
  obtain ⟨s', hs'⟩ : ∃ s, firstAuth toyOps = some s := ⟨_, rfl⟩
  obtain ⟨b, bs, w, h1, _, h2⟩ := toy_answer (DID.new Toy.env (3 : UInt8)) _ rfl toyOps s s' hs hs' [1] [2]
  refine ⟨s, s', b, bs, w, _, rfl, rfl, h2, ?_, didOf_owns _, h1⟩
  intro k j x y opts hk e
  match k, hk with
  | 0, _ => exact nomatch e
  | 1, _ => exact nomatch e

/-- A desk asks two questions, one of them twice; the answer to the other is accepted once, though it comes three times
(`C105_step`, `C105_history`, `C105_once`). -/
example (b : Endorsed) (bs : Bytes) (w : VP Toy.env)
    (h : readAnswer (anchored (fun _ => true) [b]) .assertionMethod [1] [2] bs = some w) :
    (Desk.run [1] [.receive (anchored (fun _ => true) [b]) .assertionMethod [2] bs, .ask [2], .ask [3], .ask [3],
      .receive (anchored (fun _ => true) [b]) .assertionMethod [2] bs, .receive (anchored (fun _ => true) [b]) .assertionMethod [3] bs,
      .receive (anchored (fun _ => true) [b]) .assertionMethod [2] bs]).accepted = [([2], bs, w)] := by
  have h3 : readAnswer (E := Toy.env) (anchored (fun _ => true) [b]) .assertionMethod [1] [3] bs = none := by
    cases h' : readAnswer (E := Toy.env) (anchored (fun _ => true) [b]) .assertionMethod [1] [3] bs with
    | none => rfl
    | some w' => exact absurd (C105_one Toy.jcsLaws _ _ _ _ _ _ _ _ _ _ _ h h').2.1 (by decide)
  simp [Desk.run, Desk.step, h, h3]

/-- A borrowed credential: what `C105_borrowed` asks for, with another holder than the subject; and the reader of answers
refuses it. -/
example (did : Str) (h : did ≠ "did:x".toList) : about (E := Toy.env) did { toySigned with credentialSubject := subjectOf "did:x".toList } = false := by
  cases e : about (E := Toy.env) did { toySigned with credentialSubject := subjectOf "did:x".toList } with
  | false => rfl
  | true =>
    obtain ⟨kvs, h1, h2⟩ := (about_iff _ _).mp e
    simp only [subjectOf, Json.obj.injEq] at h1
    subst h1
    simp at h2
    exact absurd h2 h

/-- `C105_ignored`: a presentation text and the same text with a challenge in its proof. -/
example (challenge : Str) : ∃ (pre post a b : List (Bytes × Raw)) (bs bs' : Bytes),
    JsonText (.obj (pre ++ (encStr "proof".toList, .obj (a ++ b)) :: post)) bs ∧
    JsonText (.obj (pre ++ (encStr "proof".toList, .obj (a ++ (encStr "challenge".toList, .str (encStr challenge)) :: b)) :: post)) bs' ∧
    Spells (encStr "proof".toList) "proof".toList ∧ Spells (encStr "challenge".toList) "challenge".toList := by
  refine ⟨[(encStr "holder".toList, .str (encStr "did:x".toList)), (encStr "type".toList, .arr [.str (encStr "P".toList)])],
    [(encStr "verifiableCredential".toList, .arr [])], [(encStr "id".toList, .str (encStr "p".toList))],
    [(encStr "type".toList, .str (encStr "DataIntegrityProof".toList))], _, _,
    (Raw.parse_iff _ _).mp (Raw.parse_render _ ?_), (Raw.parse_iff _ _).mp (Raw.parse_render _ ?_),
    spells_of_dec (by decide +kernel) (by decide +kernel), spells_of_dec (by decide +kernel) (by decide +kernel)⟩ <;>
  simp only [List.cons_append, List.nil_append, Raw.Ok, Raw.OkMembers, Raw.OkList, isStrTok_encStr, and_self]

end Verif.Props
