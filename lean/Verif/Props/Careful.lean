import Verif.Props.Padding
import Verif.Props.Canonical

/-
C101: what a caller has to add around the library to get the claims C37, C38, C39, C40, C41 and C61, which the library
does not keep by itself.

The programs `Careful.*` are not part of /repo. They are callers: they use the public functions of the library
(`add_proof`, `verify_proof`, `parse_json_bytes`, `to_jcs`), a clock and a way to find keys. The theorems say that the
claims hold of what these callers accept and make, and that documents made by the careful signer are accepted by the
careful reader, so that nothing is lost by the checks.
-/

namespace Verif.Careful
open Verif Props

/-- What the caller brings along: whether a date text has passed, and the key of a verification method. -/
structure Policy (E : Env) where
  expired : Str → Bool
  keyOf : Str → Option E.EdPub

/-- The verification method is a fragment of the DID. -/
def belongs (did method : Str) : Bool := (did ++ ['#']).isPrefixOf method

/-- The checks on the proof alone. -/
def proofOk {E : Env} (P : Policy E) (did : Str) (p : Proof) : Bool :=
  p.proofValue.head? == some 'z' && belongs did p.verificationMethod &&
    (match p.expires with | none => true | some e => !P.expired e)

/-- `verify_proof` under the key of the verification method. -/
def verifies (E : Env) (T : Type) [Proofable T] (P : Policy E) (purpose : ProofPurpose) (bs : Bytes) (p : Proof) : Bool :=
  match P.keyOf p.verificationMethod with
  | none => false
  | some pub =>
    match verify E T pub bs purpose with
    | .ok r => r.verified
    | .error _ => false

/-- Reads and checks a credential. -/
def readVC {E : Env} (P : Policy E) (purpose : ProofPurpose) (bs : Bytes) : Option (VC E) :=
  match VC.parseJsonBytes E bs with
  | .error _ => none
  | .ok v =>
    match v.proof, v.toJcs with
    | some p, .ok t =>
      if utf8Encode t = bs ∧ proofOk P v.issuer p = true ∧ verifies E (VC E) P purpose bs p = true then some v else none
    | _, _ => none

/-- A credential inside a presentation is checked from its own canonical text. -/
def embedded {E : Env} (P : Policy E) (c : VC E) : Bool :=
  match c.toJcs with
  | .ok t => (readVC P .assertionMethod (utf8Encode t)).isSome
  | .error _ => false

/-- Reads and checks a presentation with the credentials inside. -/
def readVP {E : Env} (P : Policy E) (purpose : ProofPurpose) (bs : Bytes) : Option (VP E) :=
  match VP.parseJsonBytes E bs with
  | .error _ => none
  | .ok v =>
    match v.proof, v.holder, v.toJcs with
    | some p, some h, .ok t =>
      if utf8Encode t = bs ∧ proofOk P h p = true ∧ verifies E (VP E) P purpose bs p = true ∧
        v.verifiableCredential.all (embedded P) = true then some v else none
    | _, _, _ => none

/-- Signs a credential: an old proof and an old proof value are removed first. -/
def signVC {E : Env} (kp : E.EdKP) (v : VC E) (opts : Proof) : Except ProofError (VC E) :=
  sign E (VC E) kp { v with proof := none } { opts with proofValue := [] }

/-- Signs a presentation in the same way. -/
def signVP {E : Env} (kp : E.EdKP) (v : VP E) (opts : Proof) : Except ProofError (VP E) :=
  sign E (VP E) kp { v with proof := none } { opts with proofValue := [] }

end Verif.Careful

namespace Verif.Spec
open Verif Careful Props

/-- The proof `p` was made for these canonical bytes by the key of a method of `did`, written in base58btc, for this
purpose, and has not expired. -/
structure Sound (E : Env) (P : Policy E) (did : Str) (purpose : ProofPurpose) (p : Proof) (doc : Bytes) : Prop where
  options : GoodOptions E p
  aim : p.proofPurpose = purpose
  known : purpose ≠ .unknown
  fresh : ∀ e, p.expires = some e → P.expired e = false
  owner : ∃ fragment, p.verificationMethod = did ++ '#' :: fragment
  signed : ∃ pub sig hex, P.keyOf p.verificationMethod = some pub ∧ IsMultibase58 sig p.proofValue ∧ IsHex sig hex ∧
    E.edVerify pub (message E (optionBytes E (unvalued p)) doc) hex = .ok true

/-- The credential of a careful reader: the text is the canonical text of the complete credential, reads as it, and the
proof is sound for the issuer. -/
structure SoundVC (E : Env) (P : Policy E) (purpose : ProofPurpose) (bs : Bytes) (v : VC E) : Prop where
  complete : VCComplete v
  text : bs = vcBytes v
  reads : VC.parseJsonBytes E bs = .ok v
  proof : ∃ p, v.proof = some p ∧ Sound E P v.issuer purpose p (vcBytes (unsignedVC v))

/-- The same for presentations; every credential inside is sound too, from its own canonical text. -/
structure SoundVP (E : Env) (P : Policy E) (purpose : ProofPurpose) (bs : Bytes) (v : VP E) : Prop where
  complete : VPComplete v
  text : bs = vpBytes v
  reads : VP.parseJsonBytes E bs = .ok v
  proof : ∃ p h, v.proof = some p ∧ v.holder = some h ∧ Sound E P h purpose p (vpBytes (unsignedVP v))
  credentials : ∀ c ∈ v.verifiableCredential, SoundVC E P .assertionMethod (vcBytes c) c

end Verif.Spec

namespace Verif.Props
open Verif Spec Careful

/-! ### The checks -/

theorem belongs_iff (did method : Str) : belongs did method = true ↔ ∃ f, method = did ++ '#' :: f := by
  unfold belongs
  rw [List.isPrefixOf_iff_prefix]
  constructor
  · rintro ⟨f, rfl⟩; exact ⟨f, by simp⟩
  · rintro ⟨f, rfl⟩; exact ⟨f, by simp⟩

theorem proofOk_iff {E : Env} (P : Policy E) (did : Str) (p : Proof) : proofOk P did p = true ↔
    p.proofValue.head? = some 'z' ∧ (∃ f, p.verificationMethod = did ++ '#' :: f) ∧
      ∀ e, p.expires = some e → P.expired e = false := by
  unfold proofOk
  rw [Bool.and_eq_true, Bool.and_eq_true, belongs_iff, beq_iff_eq, and_assoc]
  refine and_congr_right fun _ => and_congr_right fun _ => ?_
  cases p.expires with
  | none => simp
  | some e => simp

theorem verifies_iff {E : Env} {T : Type} [Proofable T] (P : Policy E) (purpose : ProofPurpose) (bs : Bytes) (p : Proof) :
    verifies E T P purpose bs p = true ↔
      ∃ pub r, P.keyOf p.verificationMethod = some pub ∧ verify E T pub bs purpose = .ok r ∧ r.verified = true := by
  unfold verifies
  cases hk : P.keyOf p.verificationMethod with
  | none => simp
  | some pub =>
    cases hv : verify E T pub bs purpose with
    | error e => simp [hv]
    | ok r => simp [hv]

theorem multibase_z {E : Env} {base : MBase} {sig : Bytes} {text : Str} (h : IsMultibase E base sig text)
    (hz : text.head? = some 'z') : IsMultibase58 sig text := by
  cases h with
  | base58 h => exact h
  | base16 h => simp at hz
  | base16Any _ h => simp at hz
  | other hc h =>
    exfalso
    simp only [List.head?_cons, Option.some.injEq] at hz
    subst hz
    simp [otherBases] at hc

theorem head_of_multibase58 {sig : Bytes} {text : Str} (h : IsMultibase58 sig text) : text.head? = some 'z' := by
  rw [h.unique]; rfl

theorem readVC_iff {E : Env} (P : Policy E) (purpose : ProofPurpose) (bs : Bytes) (v : VC E) :
    readVC P purpose bs = some v ↔ VC.parseJsonBytes E bs = .ok v ∧ ∃ p t, v.proof = some p ∧ v.toJcs = .ok t ∧
      utf8Encode t = bs ∧ proofOk P v.issuer p = true ∧ verifies E (VC E) P purpose bs p = true := by
  unfold readVC
  cases hb : VC.parseJsonBytes E bs with
  | error e => simp
  | ok w =>
    simp only [Except.ok.injEq]
    constructor
    · intro h
      split at h
      · rename_i p t hp ht
        split at h
        · rename_i hc
          cases h
          exact ⟨rfl, p, t, hp, ht, hc⟩
        · cases h
      · cases h
    · rintro ⟨rfl, p, t, hp, ht, hc⟩
      rw [hp, ht]
      simp only
      rw [if_pos hc]

theorem readVP_iff {E : Env} (P : Policy E) (purpose : ProofPurpose) (bs : Bytes) (v : VP E) :
    readVP P purpose bs = some v ↔ VP.parseJsonBytes E bs = .ok v ∧ ∃ p h t, v.proof = some p ∧ v.holder = some h ∧
      v.toJcs = .ok t ∧ utf8Encode t = bs ∧ proofOk P h p = true ∧ verifies E (VP E) P purpose bs p = true ∧
      v.verifiableCredential.all (embedded P) = true := by
  unfold readVP
  cases hb : VP.parseJsonBytes E bs with
  | error e => simp
  | ok w =>
    simp only [Except.ok.injEq]
    constructor
    · intro h
      split at h
      · rename_i p hh t hp hd ht
        split at h
        · rename_i hc
          cases h
          exact ⟨rfl, p, hh, t, hp, hd, ht, hc⟩
        · cases h
      · cases h
    · rintro ⟨rfl, p, hh, t, hp, hd, ht, hc⟩
      rw [hp, hd, ht]
      simp only
      rw [if_pos hc]

/-! ### C101: what the careful reader accepts -/

/-- C101 (credentials): the careful reader returns a credential exactly if it is sound. -/
theorem C101_vc {E : Env} (L : E.JcsLaws) (P : Policy E) (purpose : ProofPurpose) (bs : Bytes) (v : VC E) :
    readVC P purpose bs = some v ↔ SoundVC E P purpose bs v := by
  rw [readVC_iff]
  constructor
  · rintro ⟨hb, p, t, hp, ht, he, hok, hv⟩
    obtain ⟨hc, ht'⟩ := (vc_toJcs_iff L v t).mp ht
    obtain ⟨hz, ho, hx⟩ := (proofOk_iff P _ _).mp hok
    obtain ⟨pub, r, hk, hr, hrv⟩ := (verifies_iff P purpose bs p).mp hv
    obtain ⟨v', p', a1, a2, a3, a4, a5, _, ⟨base, sig, hex, a6, a7, a8⟩, _⟩ := (C33_vc L pub bs purpose r).mp ⟨hr, hrv⟩
    rw [hb] at a1; cases a1
    rw [hp] at a2; cases a2
    exact ⟨hc, he.symm.trans ht', hb, p, hp, a3, a4, a5, hx, ho, pub, sig, hex, hk, multibase_z a6 hz, a7, a8⟩
  · rintro ⟨hc, ht, hb, p, hp, a3, a4, a5, hx, ho, pub, sig, hex, hk, a6, a7, a8⟩
    obtain ⟨t, h1⟩ := (C24_serialise_iff v).2.1.mpr hc
    refine ⟨hb, p, t, hp, h1, ?_, (proofOk_iff P _ _).mpr ⟨head_of_multibase58 a6, ho, hx⟩, (verifies_iff P purpose bs p).mpr ?_⟩
    · rw [ht]; exact ((vc_toJcs_iff L v t).mp h1).2
    · exact ⟨pub, _, hk, (C33_vc L pub bs purpose ⟨true, some (unsignedVC v)⟩).mpr
        ⟨v, p, hb, hp, a3, a4, a5, hc, ⟨.base58Btc, sig, hex, .base58 a6, a7, a8⟩, rfl⟩⟩

/-- A presentation read from its own canonical text: every credential inside reads from its own canonical text. -/
theorem embedded_reads {E : Env} (L : E.JcsLaws) {bs : Bytes} {v : VP E} (hc : VPComplete v) (ht : bs = vpBytes v)
    (hb : VP.parseJsonBytes E bs = .ok v) (c : VC E) (hm : c ∈ v.verifiableCredential) (hcc : VCComplete c) :
    VC.parseJsonBytes E (vcBytes c) = .ok c := by
  have hd : ∀ c ∈ v.verifiableCredential, c.credentialSubject.1.depth ≤ 124 := parsed_depth_vp hb
  obtain ⟨t, h1, h2, _⟩ := C53_vp L v hc hd
  have e1 : utf8 t = bs := by rw [utf8_eq, ht]; exact ((vp_toJcs_iff L v t).mp h1).2
  have hsame : SameVP v v := by
    refine ⟨rfl, rfl, ?_, rfl, rfl⟩
    generalize v.verifiableCredential = l
    induction l with
    | nil => exact .nil
    | cons x l ih => exact .cons ⟨rfl, rfl, rfl, rfl, rfl, rfl⟩ ih
  have hr := h2.mp ⟨v, by rw [e1]; exact hb, hsame⟩
  have hjt : t = jcsText E v.toTree := by
    have : v.toJcs = .ok (jcsText E v.toTree) := by unfold VP.toJcs; rw [(C25_validate v).1.mpr hc]
    rw [h1] at this
    exact Except.ok.inj this
  have e2 : VP.parseJsonBytes E bs = .ok (v.mapNum (rejcs E)) := by
    rw [← e1, hjt, utf8_eq, VP.parse_jcs L,
      VP.dec_toTree v (fun c hc n hm => ((rereads_iff L _).mp (hr c hc) n hm).1) 128 (by omega)
        (fun c hc => by have := hd c hc; omega)]
  rw [hb, Except.ok.injEq] at e2
  have e3 : v.verifiableCredential = v.verifiableCredential.map (VC.mapNum (rejcs E)) := congrArg VP.verifiableCredential e2
  have e4 : c.mapNum (rejcs E) = c := by
    have : ∀ (l : List (VC E)), l = l.map (VC.mapNum (rejcs E)) → ∀ c ∈ l, c.mapNum (rejcs E) = c := by
      intro l
      induction l with
      | nil => intro _ c hc; cases hc
      | cons x l ih =>
        intro h c hc
        simp only [List.map_cons, List.cons.injEq] at h
        rcases List.mem_cons.mp hc with rfl | hc
        · exact h.1.symm
        · exact ih h.2 c hc
    exact this _ e3 c hm
  have hdc := hd c hm
  have e5 : vcBytes c = utf8Encode (jcsText E c.toTree) := by
    have : c.toJcs = .ok (jcsText E c.toTree) := by unfold VC.toJcs; rw [(C24_validate c).1.mpr hcc]
    exact ((vc_toJcs_iff L c _).mp this).2.symm
  rw [e5, VC.parse_jcs L,
    VC.dec_toTree c (fun n hn => ((rereads_iff L _).mp (hr c hm) n hn).1) 128 (by omega) (by omega), e4]

/-- The check on a credential inside. -/
theorem embedded_iff {E : Env} (L : E.JcsLaws) (P : Policy E) (c : VC E) :
    embedded P c = true ↔ VCComplete c ∧ ∃ w, SoundVC E P .assertionMethod (vcBytes c) w := by
  unfold embedded
  constructor
  · intro h
    split at h
    · rename_i t ht
      obtain ⟨hc, e⟩ := (vc_toJcs_iff L c t).mp ht
      obtain ⟨w, hw⟩ := Option.isSome_iff_exists.mp h
      rw [e] at hw
      exact ⟨hc, w, (C101_vc L P _ _ _).mp hw⟩
    · cases h
  · rintro ⟨hc, w, hw⟩
    obtain ⟨t, ht⟩ := (C24_serialise_iff c).2.1.mpr hc
    rw [ht]
    simp only
    rw [((vc_toJcs_iff L c t).mp ht).2, (C101_vc L P _ _ _).mpr hw]
    rfl

/-- C101 (presentations): the careful reader returns a presentation exactly if it and every credential inside are
sound. -/
theorem C101_vp {E : Env} (L : E.JcsLaws) (P : Policy E) (purpose : ProofPurpose) (bs : Bytes) (v : VP E) :
    readVP P purpose bs = some v ↔ SoundVP E P purpose bs v := by
  rw [readVP_iff]
  constructor
  · rintro ⟨hb, p, h, t, hp, hh, ht, he, hok, hv, hall⟩
    obtain ⟨hc, ht'⟩ := (vp_toJcs_iff L v t).mp ht
    obtain ⟨hz, ho, hx⟩ := (proofOk_iff P _ _).mp hok
    obtain ⟨pub, r, hk, hr, hrv⟩ := (verifies_iff P purpose bs p).mp hv
    obtain ⟨v', p', a1, a2, a3, a4, a5, _, ⟨base, sig, hex, a6, a7, a8⟩, _⟩ := (C33_vp L pub bs purpose r).mp ⟨hr, hrv⟩
    rw [hb] at a1; cases a1
    rw [hp] at a2; cases a2
    refine ⟨hc, he.symm.trans ht', hb,
      ⟨p, h, hp, hh, a3, a4, a5, hx, ho, pub, sig, hex, hk, multibase_z a6 hz, a7, a8⟩, ?_⟩
    intro c hm
    obtain ⟨hcc, w, hw⟩ := (embedded_iff L P c).mp (List.all_eq_true.mp hall c hm)
    have := embedded_reads L hc (he.symm.trans ht') hb c hm hcc
    have e := hw.reads
    rw [this] at e
    cases e
    exact hw
  · rintro ⟨hc, ht, hb, ⟨p, h, hp, hh, a3, a4, a5, hx, ho, pub, sig, hex, hk, a6, a7, a8⟩, hall⟩
    obtain ⟨t, h1⟩ := (C25_serialise_iff v).2.1.mpr hc
    refine ⟨hb, p, h, t, hp, hh, h1, ?_, (proofOk_iff P _ _).mpr ⟨head_of_multibase58 a6, ho, hx⟩,
      (verifies_iff P purpose bs p).mpr ?_, ?_⟩
    · rw [ht]; exact ((vp_toJcs_iff L v t).mp h1).2
    · exact ⟨pub, _, hk, (C33_vp L pub bs purpose ⟨true, some (unsignedVP v)⟩).mpr
        ⟨v, p, hb, hp, a3, a4, a5, hc, ⟨.base58Btc, sig, hex, .base58 a6, a7, a8⟩, rfl⟩⟩
    · exact List.all_eq_true.mpr fun c hm => (embedded_iff L P c).mpr ⟨(hall c hm).complete, c, hall c hm⟩

/-- What the careful reader returns is also accepted by the library, under the key found. -/
theorem soundVC_accepted {E : Env} (L : E.JcsLaws) {P : Policy E} {purpose : ProofPurpose} {bs : Bytes} {v : VC E}
    (h : SoundVC E P purpose bs v) : ∃ p pub, v.proof = some p ∧ P.keyOf p.verificationMethod = some pub ∧
      AcceptedVC pub bs purpose v := by
  obtain ⟨p, hp, hs⟩ := h.proof
  obtain ⟨pub, sig, hex, hk, a6, a7, a8⟩ := hs.signed
  exact ⟨p, pub, hp, hk, h.reads, _, (C33_vc L pub bs purpose ⟨true, some (unsignedVC v)⟩).mpr
    ⟨v, p, h.reads, hp, hs.options, hs.aim, hs.known, h.complete, ⟨.base58Btc, sig, hex, .base58 a6, a7, a8⟩, rfl⟩⟩

theorem soundVP_accepted {E : Env} (L : E.JcsLaws) {P : Policy E} {purpose : ProofPurpose} {bs : Bytes} {v : VP E}
    (h : SoundVP E P purpose bs v) : ∃ p pub, v.proof = some p ∧ P.keyOf p.verificationMethod = some pub ∧
      AcceptedVP pub bs purpose v := by
  obtain ⟨p, _, hp, _, hs⟩ := h.proof
  obtain ⟨pub, sig, hex, hk, a6, a7, a8⟩ := hs.signed
  exact ⟨p, pub, hp, hk, h.reads, _, (C33_vp L pub bs purpose ⟨true, some (unsignedVP v)⟩).mpr
    ⟨v, p, h.reads, hp, hs.options, hs.aim, hs.known, h.complete, ⟨.base58Btc, sig, hex, .base58 a6, a7, a8⟩, rfl⟩⟩

/-- C101: the full claims of C38, C39 and C41 hold of what the careful reader returns, and the library accepts it. -/
theorem C101_claims_vc {E : Env} (L : E.JcsLaws) (P : Policy E) (purpose : ProofPurpose) (bs : Bytes) (v : VC E)
    (h : readVC P purpose bs = some v) :
    ∃ p pub fragment, v.proof = some p ∧ AcceptedVC pub bs purpose v ∧ (∃ sig, IsMultibase58 sig p.proofValue) ∧
      (∀ e, p.expires = some e → P.expired e = false) ∧ P.keyOf p.verificationMethod = some pub ∧
      p.verificationMethod = v.issuer ++ '#' :: fragment := by
  have hs := (C101_vc L P purpose bs v).mp h
  obtain ⟨p, pub, hp, hk, ha⟩ := soundVC_accepted L hs
  obtain ⟨p', hp', hq⟩ := hs.proof
  rw [hp] at hp'; cases hp'
  obtain ⟨f, hf⟩ := hq.owner
  obtain ⟨_, sig, _, _, h6, _⟩ := hq.signed
  exact ⟨p, pub, f, hp, ha, ⟨sig, h6⟩, hq.fresh, hk, hf⟩

/-- C101: the full claims of C38 to C41 hold of what the careful reader of presentations returns: the credentials inside
are returned by the careful reader of credentials as well. -/
theorem C101_claims_vp {E : Env} (L : E.JcsLaws) (P : Policy E) (purpose : ProofPurpose) (bs : Bytes) (v : VP E)
    (h : readVP P purpose bs = some v) :
    (∃ p pub holder fragment, v.proof = some p ∧ AcceptedVP pub bs purpose v ∧ (∃ sig, IsMultibase58 sig p.proofValue) ∧
      (∀ e, p.expires = some e → P.expired e = false) ∧ P.keyOf p.verificationMethod = some pub ∧
      v.holder = some holder ∧ p.verificationMethod = holder ++ '#' :: fragment) ∧
    v.verifiableCredential ≠ [] ∧
    ∀ c ∈ v.verifiableCredential, ∃ t, c.toJcs = .ok t ∧ readVC P .assertionMethod (utf8 t) = some c := by
  have hs := (C101_vp L P purpose bs v).mp h
  obtain ⟨p, pub, hp, hk, ha⟩ := soundVP_accepted L hs
  obtain ⟨p', holder, hp', hh, hq⟩ := hs.proof
  rw [hp] at hp'; cases hp'
  obtain ⟨f, hf⟩ := hq.owner
  obtain ⟨_, sig, _, _, h6, _⟩ := hq.signed
  refine ⟨⟨p, pub, holder, f, hp, ha, ⟨sig, h6⟩, hq.fresh, hk, hh, hf⟩, hs.complete.2.2, ?_⟩
  intro c hm
  have hc := hs.credentials c hm
  obtain ⟨t, ht⟩ := (C24_serialise_iff c).2.1.mpr hc.complete
  refine ⟨t, ht, ?_⟩
  rw [utf8_eq, ((vc_toJcs_iff L c t).mp ht).2]
  exact (C101_vc L P _ _ _).mpr hc

/-! ### C101: no text but one -/

theorem proof_of_parts {p q : Proof} (h : unvalued p = unvalued q) (h' : p.proofValue = q.proofValue) : p = q := by
  obtain ⟨a, b, c, d, e, f, g, i⟩ := p
  obtain ⟨a', b', c', d', e', f', g', i'⟩ := q
  simp only [unvalued, Proof.mk.injEq, true_and] at h h'
  simp [h, h']

/-- C101 (credentials): two texts with the same proof value that the careful reader returns under the same key are the
same text, byte for byte, or there is an explicit collision or the key accepts the signature for two messages. -/
theorem C101_bytes_vc {E : Env} (H : E.HashLaws) (L : E.JcsLaws) (P : Policy E) (purpose purpose' : ProofPurpose)
    (bs bs' : Bytes) (v w : VC E) (p q : Proof) (h : readVC P purpose bs = some v) (h' : readVC P purpose' bs' = some w)
    (hp : v.proof = some p) (hq : w.proof = some q) (he : p.proofValue = q.proofValue)
    (hk : P.keyOf p.verificationMethod = P.keyOf q.verificationMethod) :
    bs = bs' ∨ ∃ pub sig, P.keyOf p.verificationMethod = some pub ∧ IsMultibase58 sig p.proofValue ∧
      Conflict E pub sig (optionBytes E (unvalued p)) (vcBytes (unsignedVC v)) (optionBytes E (unvalued q))
        (vcBytes (unsignedVC w)) := by
  have hs := (C101_vc L P _ _ _).mp h
  have hs' := (C101_vc L P _ _ _).mp h'
  obtain ⟨p1, pub, e1, hk1, ha⟩ := soundVC_accepted L hs
  rw [hp] at e1; cases e1
  obtain ⟨q1, pub', e2, hk2, hb⟩ := soundVC_accepted L hs'
  rw [hq] at e2; cases e2
  have : pub' = pub := by rw [hk, hk2] at hk1; exact Option.some.inj hk1
  subst this
  obtain ⟨p2, e3, hsp⟩ := hs.proof
  rw [hp] at e3; cases e3
  obtain ⟨_, sig, _, _, h6, _⟩ := hsp.signed
  rcases C57_vc H L _ bs bs' purpose purpose' v w p q sig .base58Btc .base58Btc ha hb hp hq (.base58 h6)
    (.base58 (he ▸ h6)) with ⟨e4, e5, _⟩ | hc
  · left
    have epq := proof_of_parts e5 he
    rw [hs.text, hs'.text]
    exact vcBytes_of_same L ⟨e4.contexts, e4.types, e4.subject, by rw [hp, hq, epq], e4.id, e4.issuer⟩
  · exact .inr ⟨_, sig, hk1, h6, hc⟩

/-- C101 (presentations). -/
theorem C101_bytes_vp {E : Env} (H : E.HashLaws) (L : E.JcsLaws) (P : Policy E) (purpose purpose' : ProofPurpose)
    (bs bs' : Bytes) (v w : VP E) (p q : Proof) (h : readVP P purpose bs = some v) (h' : readVP P purpose' bs' = some w)
    (hp : v.proof = some p) (hq : w.proof = some q) (he : p.proofValue = q.proofValue)
    (hk : P.keyOf p.verificationMethod = P.keyOf q.verificationMethod) :
    bs = bs' ∨ ∃ pub sig, P.keyOf p.verificationMethod = some pub ∧ IsMultibase58 sig p.proofValue ∧
      Conflict E pub sig (optionBytes E (unvalued p)) (vpBytes (unsignedVP v)) (optionBytes E (unvalued q))
        (vpBytes (unsignedVP w)) := by
  have hs := (C101_vp L P _ _ _).mp h
  have hs' := (C101_vp L P _ _ _).mp h'
  obtain ⟨p1, pub, e1, hk1, ha⟩ := soundVP_accepted L hs
  rw [hp] at e1; cases e1
  obtain ⟨q1, pub', e2, hk2, hb⟩ := soundVP_accepted L hs'
  rw [hq] at e2; cases e2
  have : pub' = pub := by rw [hk, hk2] at hk1; exact Option.some.inj hk1
  subst this
  obtain ⟨p2, _, e3, _, hsp⟩ := hs.proof
  rw [hp] at e3; cases e3
  obtain ⟨_, sig, _, _, h6, _⟩ := hsp.signed
  rcases C57_vp H L _ bs bs' purpose purpose' v w p q sig .base58Btc .base58Btc ha hb hp hq (.base58 h6)
    (.base58 (he ▸ h6)) with ⟨e4, e5, _⟩ | hc
  · left
    have epq := proof_of_parts e5 he
    rw [hs.text, hs'.text]
    exact vpBytes_of_same L ⟨e4.contexts, e4.types, e4.credentials, by rw [hp, hq, epq], e4.holder⟩
  · exact .inr ⟨_, sig, hk1, h6, hc⟩

/-- C101 (credentials): a text with the proof value of a carefully signed credential that the careful reader returns, under
whatever key, is the canonical text of that credential, byte for byte, or the cryptography is broken. -/
theorem C101_signed_bytes_vc {E : Env} (H : E.HashLaws) (L : E.JcsLaws) (kp : E.EdKP) (v : VC E) (opts : Proof)
    (signed : VC E) (q : Proof) (hs : signVC kp v opts = .ok signed) (hq : signed.proof = some q) (P : Policy E)
    (purpose : ProofPurpose) (bs : Bytes) (w : VC E) (p : Proof) (h : readVC P purpose bs = some w)
    (hp : w.proof = some p) (he : p.proofValue = q.proofValue) :
    bs = vcBytes signed ∨ ∃ pub sig, P.keyOf p.verificationMethod = some pub ∧ IsMultibase58 sig p.proofValue ∧
      Broken E kp pub sig (optionBytes E (unvalued opts)) (vcBytes (unsignedVC v)) (optionBytes E (unvalued p))
        (vcBytes (unsignedVC w)) := by
  have hr := (C101_vc L P _ _ _).mp h
  obtain ⟨p1, pub, e1, hk, hw, r, hv, hok⟩ := soundVC_accepted L hr
  rw [hp] at e1; cases e1
  obtain ⟨p2, e3, hsp⟩ := hr.proof
  rw [hp] at e3; cases e3
  obtain ⟨_, sig, _, _, h6, _⟩ := hsp.signed
  rcases C35_vc H L kp _ _ signed q sig hs hq (he ▸ h6) pub bs purpose r w p .base58Btc hv hok hw hp (.base58 h6) with
    ⟨e4, e5⟩ | hc
  · left
    obtain ⟨_, _, _, text, ht, rfl⟩ := ((C32_vc L kp _ _).1 _).mp hs
    cases hq
    rw [hr.text]
    refine vcBytes_of_same L ⟨e4.contexts.symm, e4.types.symm, e4.subject.symm, ?_, e4.id.symm, e4.issuer.symm⟩
    rw [hp]
    exact congrArg some (proof_of_parts e5.symm he)
  · exact .inr ⟨pub, sig, hk, h6, hc⟩

/-- C101 (presentations). -/
theorem C101_signed_bytes_vp {E : Env} (H : E.HashLaws) (L : E.JcsLaws) (kp : E.EdKP) (v : VP E) (opts : Proof)
    (signed : VP E) (q : Proof) (hs : signVP kp v opts = .ok signed) (hq : signed.proof = some q) (P : Policy E)
    (purpose : ProofPurpose) (bs : Bytes) (w : VP E) (p : Proof) (h : readVP P purpose bs = some w)
    (hp : w.proof = some p) (he : p.proofValue = q.proofValue) :
    bs = vpBytes signed ∨ ∃ pub sig, P.keyOf p.verificationMethod = some pub ∧ IsMultibase58 sig p.proofValue ∧
      Broken E kp pub sig (optionBytes E (unvalued opts)) (vpBytes (unsignedVP v)) (optionBytes E (unvalued p))
        (vpBytes (unsignedVP w)) := by
  have hr := (C101_vp L P _ _ _).mp h
  obtain ⟨p1, pub, e1, hk, hw, r, hv, hok⟩ := soundVP_accepted L hr
  rw [hp] at e1; cases e1
  obtain ⟨p2, _, e3, _, hsp⟩ := hr.proof
  rw [hp] at e3; cases e3
  obtain ⟨_, sig, _, _, h6, _⟩ := hsp.signed
  rcases C35_vp H L kp _ _ signed q sig hs hq (he ▸ h6) pub bs purpose r w p .base58Btc hv hok hw hp (.base58 h6) with
    ⟨e4, e5⟩ | hc
  · left
    obtain ⟨_, _, _, text, ht, rfl⟩ := ((C32_vp L kp _ _).1 _).mp hs
    cases hq
    rw [hr.text]
    have e4' := SameVP.symm e4
    refine vpBytes_of_same L ⟨e4'.contexts, e4'.types, e4'.credentials, ?_, e4'.holder⟩
    rw [hp]
    exact congrArg some (proof_of_parts e5.symm he)
  · exact .inr ⟨pub, sig, hk, h6, hc⟩

/-! ### C101: no member outside the signature -/

/-- Replacing a member by another text leaves the proof as it is. -/
theorem member_proof {E : Env} {pre post : List (Bytes × Raw)} {k x y : Bytes} {n : Str} {bs bs' : Bytes} {v w : VC E}
    (h : JsonText (.obj (pre ++ (k, .str x) :: post)) bs) (h' : JsonText (.obj (pre ++ (k, .str y) :: post)) bs')
    (hk : Spells k n) (hv : VC.parseJsonBytes E bs = .ok v) (hw : VC.parseJsonBytes E bs' = .ok w) :
    v.proof = w.proof := by
  unfold VC.parseJsonBytes fromSlice at hv hw
  rw [(Raw.parse_iff _ _).mpr h] at hv
  rw [(Raw.parse_iff _ _).mpr h'] at hw
  simp only at hv hw
  cases hdv : VC.dec E 128 (.obj (pre ++ (k, .str x) :: post)) with
  | none => rw [hdv] at hv; cases hv
  | some v' =>
  rw [hdv] at hv; cases hv
  cases hdw : VC.dec E 128 (.obj (pre ++ (k, .str y) :: post)) with
  | none => rw [hdw] at hw; cases hw
  | some w' =>
  rw [hdw] at hw; cases hw
  by_cases hn : n ∈ vcMembers.map String.toList
  · obtain ⟨fs, e1, _, _, _, v4, _, _⟩ := (VC.dec_iff _ _ _).mp hdv
    obtain ⟨fs', e2, _, _, _, w4, _, _⟩ := (VC.dec_iff _ _ _).mp hdw
    rcases structFields_replace (known := VC.fieldNames) (d := 128) pre post (.str x) (.str y) hk.dec hn with
      ⟨e, _⟩ | ⟨gs, gs', g1, g2, g3, g4, g5⟩
    · rw [e1] at e; cases e
    rw [e1] at g1; cases g1
    rw [e2] at g2; cases g2
    by_cases hp : n = "proof".toList
    · subst hp
      simp only [optField, g4] at v4
      cases v4
    · rw [optField_lookup (g3 _ (Ne.symm hp)), w4] at v4
      exact (Option.some.inj v4).symm
  · have e1 := (PaddedVC.top (Adds.mk (known := vcMembers) pre post (.str x) hk hn)).dec (E := E) 128
    have e2 := (PaddedVC.top (Adds.mk (known := vcMembers) pre post (.str y) hk hn)).dec (E := E) 128
    rw [hdv] at e1
    rw [hdw, e1] at e2
    cases e2
    rfl

/-- C101: the full claim of C61 holds of the careful reader: a member of the text, whatever its name, cannot be given
another text value, or there is an explicit collision or the key accepts the signature for two messages. -/
theorem C101_member {E : Env} (H : E.HashLaws) (L : E.JcsLaws) (P : Policy E) (purpose : ProofPurpose)
    (pre post : List (Bytes × Raw)) (k x y : Bytes) (n s t : Str) (bs bs' : Bytes) (v w : VC E)
    (h : JsonText (.obj (pre ++ (k, .str x) :: post)) bs) (h' : JsonText (.obj (pre ++ (k, .str y) :: post)) bs')
    (hk : Spells k n) (hx : Spells x s) (hy : Spells y t) (hv : readVC P purpose bs = some v)
    (hw : readVC P purpose bs' = some w) :
    s = t ∨ ∃ p pub sig, v.proof = some p ∧ w.proof = some p ∧ P.keyOf p.verificationMethod = some pub ∧
      IsMultibase58 sig p.proofValue ∧ Conflict E pub sig (optionBytes E (unvalued p)) (vcBytes (unsignedVC v))
        (optionBytes E (unvalued p)) (vcBytes (unsignedVC w)) := by
  have hs := (C101_vc L P _ _ _).mp hv
  have hs' := (C101_vc L P _ _ _).mp hw
  have hp := member_proof h h' hk hs.reads hs'.reads
  obtain ⟨p, e1, _⟩ := hs.proof
  have e2 := hp ▸ e1
  rcases C101_bytes_vc H L P purpose purpose bs bs' v w p p hv hw e1 e2 rfl rfl with e | ⟨pub, sig, h1, h2, h3⟩
  · left
    subst e
    have e3 := (Raw.parse_iff _ _).mpr h
    rw [(Raw.parse_iff _ _).mpr h', Option.some.injEq, Raw.obj.injEq, List.append_cancel_left_eq, List.cons.injEq] at e3
    have e4 : y = x := by
      have := e3.1
      simp only [Prod.mk.injEq, Raw.str.injEq, true_and] at this
      exact this
    subst e4
    have := hx.dec
    rw [hy.dec] at this
    exact (Option.some.inj this).symm
  · exact .inr ⟨p, pub, sig, e1, e2, h1, h2, h3⟩

/-! ### C101: the careful signer -/

/-- C101: the full claim of C37 holds of the careful signer (credentials): everything it signs verifies, from every text
that reads as what was signed. -/
theorem C101_sign_vc {E : Env} (L : E.JcsLaws) (N : E.NumLaws) (K : E.EdLaws) (kp : E.EdKP) (v : VC E) (opts : Proof)
    (signed : VC E) (bs : Bytes) (hs : signVC kp v opts = .ok signed) (hb : VC.parseJsonBytes E bs = .ok signed) :
    verify E (VC E) (E.edPub kp) bs opts.proofPurpose = .ok ⟨true, some (unsignedVC v)⟩ :=
  C37_vc_partial L N K kp { v with proof := none } { opts with proofValue := [] } signed bs rfl rfl hs hb

/-- C101: the same for presentations. -/
theorem C101_sign_vp {E : Env} (L : E.JcsLaws) (N : E.NumLaws) (K : E.EdLaws) (kp : E.EdKP) (v : VP E) (opts : Proof)
    (signed : VP E) (bs : Bytes) (hs : signVP kp v opts = .ok signed) (hb : VP.parseJsonBytes E bs = .ok signed) :
    verify E (VP E) (E.edPub kp) bs opts.proofPurpose = .ok ⟨true, some (unsignedVP v)⟩ :=
  C37_vp_partial L N K kp { v with proof := none } { opts with proofValue := [] } signed bs rfl rfl hs hb

/-- C101: nothing is lost by removing the old proof: the careful signer succeeds on the same inputs. -/
theorem C101_sign_iff {E : Env} (L : E.JcsLaws) (kp : E.EdKP) (opts : Proof) :
    (∀ v : VC E, (∃ s, signVC kp v opts = .ok s) ↔ ∃ s, sign E (VC E) kp v opts = .ok s) ∧
    ∀ v : VP E, (∃ s, signVP kp v opts = .ok s) ↔ ∃ s, sign E (VP E) kp v opts = .ok s := by
  refine ⟨fun v => ⟨?_, ?_⟩, fun v => ⟨?_, ?_⟩⟩
  · rintro ⟨s, hs⟩
    obtain ⟨h1, h2, h3, _⟩ := ((C32_vc L kp _ _).1 _).mp hs
    exact ⟨_, ((C32_vc L kp _ _).1 _).mpr ⟨⟨h1.1, h1.2, h1.3⟩, h2, h3, _, multibaseEncode58_spec _, rfl⟩⟩
  · rintro ⟨s, hs⟩
    obtain ⟨h1, h2, h3, _⟩ := ((C32_vc L kp _ _).1 _).mp hs
    exact ⟨_, ((C32_vc L kp _ _).1 _).mpr ⟨⟨h1.1, h1.2, h1.3⟩, h2, h3, _, multibaseEncode58_spec _, rfl⟩⟩
  · rintro ⟨s, hs⟩
    obtain ⟨h1, h2, h3, _⟩ := ((C32_vp L kp _ _).1 _).mp hs
    exact ⟨_, ((C32_vp L kp _ _).1 _).mpr ⟨⟨h1.1, h1.2, h1.3⟩, h2, h3, _, multibaseEncode58_spec _, rfl⟩⟩
  · rintro ⟨s, hs⟩
    obtain ⟨h1, h2, h3, _⟩ := ((C32_vp L kp _ _).1 _).mp hs
    exact ⟨_, ((C32_vp L kp _ _).1 _).mpr ⟨⟨h1.1, h1.2, h1.3⟩, h2, h3, _, multibaseEncode58_spec _, rfl⟩⟩

/-- C101: honest credentials pass. What the careful signer makes for its own issuer, with a method that leads to its key and
an expiry that has not passed, is returned by the careful reader from its canonical text, up to number spelling. -/
theorem C101_honest_vc {E : Env} (L : E.JcsLaws) (K : E.EdLaws) (P : Policy E) (kp : E.EdKP) (v : VC E) (opts : Proof)
    (signed : VC E) (hs : signVC kp v opts = .ok signed) (fragment : Str)
    (ho : opts.verificationMethod = v.issuer ++ '#' :: fragment)
    (hk : P.keyOf opts.verificationMethod = some (E.edPub kp)) (hx : ∀ e, opts.expires = some e → P.expired e = false)
    (hd : v.credentialSubject.1.depth ≤ 126) (hn : Rereads E v.credentialSubject.1) :
    ∃ t w, signed.toJcs = .ok t ∧ SameVC signed w ∧ readVC P opts.proofPurpose (utf8 t) = some w := by
  obtain ⟨h1, h2, h3, text, ht, rfl⟩ := ((C32_vc L kp _ _).1 _).mp hs
  obtain ⟨c, ty, s, pr, i, iss⟩ := v
  obtain ⟨oi, ot, op, ov, om, oc, oe, os⟩ := opts
  obtain ⟨t, a1, a2, a3⟩ := C53_vc L (⟨c, ty, s, some ⟨oi, ot, op, text, om, oc, oe, os⟩, i, iss⟩ : VC E) h3 hd
  obtain ⟨w, a4, a5⟩ := a2.mpr hn
  refine ⟨t, w, a1, a5, (C101_vc L P _ _ _).mpr ?_⟩
  have hw := a3 w a4 a5
  have hu : SameVC (⟨c, ty, s, none, i, iss⟩ : VC E) (unsignedVC w) :=
    ⟨a5.contexts, a5.types, a5.subject, rfl, a5.id, a5.issuer⟩
  obtain ⟨hc, he⟩ := (vc_toJcs_iff L w t).mp hw
  refine ⟨hc, by rw [utf8_eq]; exact he, a4, _, a5.proof.symm, ⟨h1.1, h1.2, h1.3⟩, rfl, h2, hx, ⟨fragment, ?_⟩, _, _, _, hk,
    ht, hexEncode_spec _, ?_⟩
  · rw [← a5.issuer]; exact ho
  · rw [← vcBytes_of_same L hu]
    exact K.verify_sign kp _

/-- C101: honest presentations pass, if the credentials inside do. -/
theorem C101_honest_vp {E : Env} (L : E.JcsLaws) (K : E.EdLaws) (P : Policy E) (kp : E.EdKP) (v : VP E) (opts : Proof)
    (signed : VP E) (hs : signVP kp v opts = .ok signed) (holder fragment : Str) (hh : v.holder = some holder)
    (ho : opts.verificationMethod = holder ++ '#' :: fragment)
    (hk : P.keyOf opts.verificationMethod = some (E.edPub kp)) (hx : ∀ e, opts.expires = some e → P.expired e = false)
    (hd : ∀ c ∈ v.verifiableCredential, c.credentialSubject.1.depth ≤ 124)
    (hc : ∀ c ∈ v.verifiableCredential, ∃ t w, c.toJcs = .ok t ∧ SameVC c w ∧
      readVC P .assertionMethod (utf8 t) = some w) :
    ∃ t w, signed.toJcs = .ok t ∧ SameVP signed w ∧ readVP P opts.proofPurpose (utf8 t) = some w := by
  obtain ⟨h1, h2, h3, text, ht, rfl⟩ := ((C32_vp L kp _ _).1 _).mp hs
  obtain ⟨c, ty, s, pr, i⟩ := v
  obtain ⟨oi, ot, op, ov, om, oc, oe, os⟩ := opts
  obtain ⟨t, a1, a2, a3⟩ := C53_vp L (⟨c, ty, s, some ⟨oi, ot, op, text, om, oc, oe, os⟩, i⟩ : VP E) h3 hd
  have hn : ∀ x ∈ s, Rereads E x.credentialSubject.1 := by
    intro x hx
    obtain ⟨t', w', b1, b2, b3⟩ := hc x hx
    have hcx := ((vc_toJcs_iff L x t').mp b1).1
    obtain ⟨t'', d1, d2, _⟩ := C53_vc L x hcx (Nat.le_trans (hd x hx) (by omega))
    rw [b1] at d1; cases d1
    exact d2.mp ⟨w', ((C101_vc L P _ _ _).mp b3).reads, b2⟩
  obtain ⟨w, a4, a5⟩ := a2.mpr hn
  refine ⟨t, w, a1, a5, (readVP_iff P _ _ _).mpr ?_⟩
  have hw := a3 w a4 a5
  have hu : SameVP (⟨c, ty, s, none, i⟩ : VP E) (unsignedVP w) :=
    ⟨a5.contexts, a5.types, a5.credentials, rfl, a5.holder⟩
  obtain ⟨hcw, he⟩ := (vp_toJcs_iff L w t).mp hw
  refine ⟨a4, _, holder, t, a5.proof.symm, a5.holder ▸ hh, hw, (utf8_eq t).symm,
    (proofOk_iff P _ _).mpr ⟨head_of_multibase58 ht, ⟨fragment, ho⟩, hx⟩, (verifies_iff P _ _ _).mpr ⟨_, ⟨true, some (unsignedVP w)⟩, hk, ?_⟩, ?_⟩
  · refine (C33_vp L (E.edPub kp) (utf8 t) op ⟨true, some (unsignedVP w)⟩).mpr
      ⟨w, _, a4, a5.proof.symm, ⟨h1.1, h1.2, h1.3⟩, rfl, h2, hcw, ⟨.base58Btc, _, _, .base58 ht, hexEncode_spec _, ?_⟩, rfl⟩
    rw [← vpBytes_of_same L hu]
    exact K.verify_sign kp _
  · rw [List.all_eq_true]
    intro x hx
    have hl := a5.credentials
    change List.Forall₂ SameVC s w.verifiableCredential at hl
    have : ∃ y ∈ s, SameVC y x := by
      clear * - hl hx
      generalize w.verifiableCredential = m at hl hx
      induction hl with
      | nil => cases hx
      | @cons a b l m hab hlm ih =>
        rcases List.mem_cons.mp hx with rfl | hx
        · exact ⟨a, by simp, hab⟩
        · obtain ⟨y, hy, hs⟩ := ih hx
          exact ⟨y, by simp [hy], hs⟩
    obtain ⟨y, hy, hyx⟩ := this
    obtain ⟨t', w', b1, b2, b3⟩ := hc y hy
    obtain ⟨hcy, ey⟩ := (vc_toJcs_iff L y t').mp b1
    refine (embedded_iff L P x).mpr ⟨VCComplete.same hyx hcy, w', ?_⟩
    rw [← vcBytes_of_same L hyx, ← ey, ← utf8_eq]
    exact (C101_vc L P _ _ _).mp b3

/-! ### Cases -/

/-- The policy of the examples: year 2000 has passed, the method of the sample options leads to key 7. -/
def toyPolicy : Policy Toy.env :=
  ⟨fun e => e == "2000".toList, fun m => if m = "did:x#k".toList then some (7 : UInt8) else none⟩

theorem toyPolicy_key : toyPolicy.keyOf "did:x#k".toList = some (7 : UInt8) := by
  simp only [toyPolicy, if_true]
  rfl

/-- Options of the holder of the sample presentation. -/
def toyHolderProof : Proof := { toyProof with expires := some "2099".toList }

/-- The sample credential, signed and read; a stale proof and proof value do no harm. -/
theorem toy_careful_vc : ∃ signed t w, signVC (E := Toy.env) (7 : UInt8) toySigned toyStale = .ok signed ∧
    signed.toJcs = .ok t ∧ SameVC signed w ∧ readVC toyPolicy .assertionMethod (utf8 t) = some w := by
  obtain ⟨s, hs⟩ := ((C101_sign_iff Toy.jcsLaws (7 : UInt8) toyStale).1 toySigned).mpr
    ⟨_, ((C32_vc Toy.jcsLaws (7 : UInt8) toySigned toyStale).1 _).mpr
      ⟨⟨toyProof_good.type, toyProof_good.suite, toyProof_good.created⟩, by decide, toySigned_complete, _,
        multibaseEncode58_spec _, rfl⟩⟩
  obtain ⟨t, w, h1, h2, h3⟩ := C101_honest_vc Toy.jcsLaws Toy.edLaws toyPolicy (7 : UInt8) toySigned toyStale s hs "k".toList
    (by decide) toyPolicy_key (by intro e h; cases h)
    (by simp [toySigned, toyVC, toySubject, Json.depth, Json.depthMembers]) (toy_rereads _)
  exact ⟨s, t, w, hs, h1, h2, h3⟩

/-- The hypotheses of the theorems on credentials are met. -/
example : ∃ signed q bs w p, signVC (E := Toy.env) (7 : UInt8) toySigned toyStale = .ok signed ∧ signed.proof = some q ∧
    readVC toyPolicy .assertionMethod bs = some w ∧ w.proof = some p ∧ p.proofValue = q.proofValue := by
  obtain ⟨s, t, w, h1, h2, h3, h4⟩ := toy_careful_vc
  obtain ⟨p, hp, _⟩ := ((C101_vc Toy.jcsLaws _ _ _ _).mp h4).proof
  exact ⟨s, p, _, w, p, h1, h3.proof.trans hp, h4, hp, rfl⟩

/-- The hypotheses of the theorems on presentations are met: the signed credential in a presentation of the same
party. -/
example : ∃ (v : VP Toy.env) (signed : VP Toy.env) (t : Str) (w : VP Toy.env),
    signVP (E := Toy.env) (7 : UInt8) v toyHolderProof = .ok signed ∧ v.verifiableCredential ≠ [] ∧ signed.toJcs = .ok t ∧
    SameVP signed w ∧ readVP toyPolicy .assertionMethod (utf8 t) = some w := by
  obtain ⟨s, t, w, h1, h2, h3, h4⟩ := toy_careful_vc
  have hd : s.credentialSubject.1.depth ≤ 124 := by
    obtain ⟨_, _, _, text, _, rfl⟩ := ((C32_vc Toy.jcsLaws (7 : UInt8) { toySigned with proof := none }
      { toyStale with proofValue := [] }).1 _).mp h1
    simp [toySigned, toyVC, toySubject, Json.depth, Json.depthMembers]
  obtain ⟨sp, hs⟩ := ((C101_sign_iff Toy.jcsLaws (7 : UInt8) toyHolderProof).2
    ⟨["urn:c".toList], ["P".toList], [s], none, some "did:x".toList⟩).mpr
      ⟨_, ((C32_vp Toy.jcsLaws (7 : UInt8) _ toyHolderProof).1 _).mpr
      ⟨⟨toyProof_good.type, toyProof_good.suite, toyProof_good.created⟩, by decide, ⟨by simp, by simp, by simp⟩, _,
        multibaseEncode58_spec _, rfl⟩⟩
  obtain ⟨t', w', a1, a2, a3⟩ := C101_honest_vp Toy.jcsLaws Toy.edLaws toyPolicy (7 : UInt8) _ toyHolderProof sp hs
    "did:x".toList "k".toList rfl (by decide) toyPolicy_key (by intro e h; cases h; decide)
    (by intro c hc; rw [List.mem_singleton.mp hc]; exact hd)
    (by intro c hc; rw [List.mem_singleton.mp hc]; exact ⟨t, w, h2, h3, h4⟩)
  exact ⟨_, _, t', w', hs, by simp, a1, a2, a3⟩

/-- The checks bite: an expired proof, and one by a method of somebody else, are refused though the library accepts
them. -/
example : proofOk toyPolicy "did:x".toList { toyProof with proofValue := "z1".toList, expires := some "2000".toList } = false ∧
    proofOk toyPolicy "did:y".toList { toyProof with proofValue := "z1".toList } = false ∧
    proofOk toyPolicy "did:x".toList { toyProof with proofValue := "f00".toList } = false ∧
    proofOk toyPolicy "did:x".toList { toyProof with proofValue := "z1".toList } = true := by decide


/-- A credential with a proof value of one byte, where signatures mean nothing. -/
def weakSound (id : Str) : VC Toy.weak :=
  ⟨["c".toList], ["t".toList], ⟨.bool true, trivial⟩,
    some { toyProof with proofValue := multibaseEncode58 [0] }, id, "did:x".toList⟩

/-- Its members in canonical order. -/
def weakTree (id : Str) : Json (Num Toy.weak.F) :=
  .obj ([("@context".toList, strArr ["c".toList]), ("credentialSubject".toList, .bool true)] ++ ("id".toList, .str id) ::
    [("issuer".toList, .str "did:x".toList), ("proof".toList,
      .obj [("created".toList, .str "2024".toList), ("cryptosuite".toList, .str "eddsa-jcs-2022".toList),
        ("id".toList, .str "p1".toList), ("proofPurpose".toList, .str "assertionMethod".toList),
        ("proofValue".toList, .str (multibaseEncode58 [0])), ("type".toList, .str "DataIntegrityProof".toList),
        ("verificationMethod".toList, .str "did:x#k".toList)]), ("type".toList, strArr ["t".toList])])

theorem weakSound_canon (id : Str) : (weakSound id).toTree.canon Toy.weak.keyLe = weakTree id := by
  simp [weakSound, weakTree, VC.toTree, Proof.toTree, toyProof, optMember, strArr, Json.canon, Json.canonMembers, Json.canonList,
    List.mergeSort, List.MergeSort.Internal.splitInTwo, Json.memLe,
    show ∀ a b, Toy.weak.keyLe a b = !strLt b a from fun _ _ => rfl, strLt]
  rfl

/-- Every key, no clock. -/
def weakPolicy : Policy Toy.weak := ⟨fun _ => false, fun _ => some (7 : UInt8)⟩

/-- The members before and after the identifier, as tokens. -/
def weakBefore : List (Bytes × Raw) := Json.toRawMembers Toy.weak.jcsNum
  [("@context".toList, strArr ["c".toList]), ("credentialSubject".toList, .bool true)]

def weakAfter : List (Bytes × Raw) := match (weakTree []).toRaw Toy.weak.jcsNum with
  | .obj kvs => kvs.drop 3
  | _ => []

theorem weakSound_text (id : Str) :
    JsonText (.obj (weakBefore ++ (encStr "id".toList, .str (encStr id)) :: weakAfter)) (vcBytes (weakSound id)) := by
  have L := Toy.weak_jcsLaws
  have hc : VCComplete (weakSound id) := ⟨by simp [weakSound], by simp [weakSound], by simp [weakSound]⟩
  have e : vcBytes (weakSound id) = utf8Encode (jcsText Toy.weak (weakSound id).toTree) := by
    have : (weakSound id).toJcs = .ok (jcsText Toy.weak (weakSound id).toTree) := by
      unfold VC.toJcs; rw [(C24_validate (weakSound id)).1.mpr hc]
    exact ((vc_toJcs_iff L (weakSound id) _).mp this).2.symm
  have hk : (weakTree id).toRaw Toy.weak.jcsNum =
      .obj (weakBefore ++ (encStr "id".toList, .str (encStr id)) :: weakAfter) := rfl
  rw [e, jcsText_bytes L, ← hk, ← weakSound_canon]
  exact (Raw.parse_iff _ _).mp (Raw.parse_render _ (Json.toRaw_ok L.num_tok _))

theorem weakSound_read (id : Str) : readVC weakPolicy .assertionMethod (vcBytes (weakSound id)) = some (weakSound id) := by
  have L := Toy.weak_jcsLaws
  have hc : VCComplete (weakSound id) := ⟨by simp [weakSound], by simp [weakSound], by simp [weakSound]⟩
  have hn : Rereads Toy.weak (weakSound id).credentialSubject.1 := by
    rw [rereads_iff L]; simp [weakSound, Json.nums]
  obtain ⟨t, a1, a2, _⟩ := C53_vc L (weakSound id) hc (by simp [weakSound, Json.depth])
  obtain ⟨w, a4, a5⟩ := a2.mpr hn
  have e : utf8 t = vcBytes (weakSound id) := by rw [utf8_eq]; exact ((vc_toJcs_iff L _ t).mp a1).2
  rw [e] at a4
  have ew : w = weakSound id := by
    obtain ⟨c, ty, ⟨s, hs⟩, pr, i, iss⟩ := w
    obtain ⟨h1, h2, h3, h4, h5, h6⟩ := a5
    simp only at h1 h2 h4 h5 h6
    subst h1 h2 h4 h5 h6
    simp only [weakSound, Json.mapNum] at h3
    cases s <;> simp [Json.mapNum] at h3
    subst h3
    rfl
  rw [ew] at a4
  exact (C101_vc L _ _ _ _).mpr ⟨hc, rfl, a4, _, rfl, ⟨toyProof_good.1, toyProof_good.2, toyProof_good.3⟩, rfl, by decide,
    fun _ _ => rfl, ⟨"k".toList, rfl⟩, _, [0], _, rfl, multibaseEncode58_spec _, hexEncode_spec _, rfl⟩

/-- Where signatures mean nothing the hypotheses of `C101_bytes_vc` and `C101_member` are met by two texts with different
identifiers, so the second alternative occurs. -/
example : JsonText (.obj (weakBefore ++ (encStr "id".toList, .str (encStr "i".toList)) :: weakAfter)) (vcBytes (weakSound "i".toList)) ∧
    JsonText (.obj (weakBefore ++ (encStr "id".toList, .str (encStr "j".toList)) :: weakAfter)) (vcBytes (weakSound "j".toList)) ∧
    Spells (encStr "id".toList) "id".toList ∧ Spells (encStr "i".toList) "i".toList ∧ Spells (encStr "j".toList) "j".toList ∧
    readVC weakPolicy .assertionMethod (vcBytes (weakSound "i".toList)) = some (weakSound "i".toList) ∧
    readVC weakPolicy .assertionMethod (vcBytes (weakSound "j".toList)) = some (weakSound "j".toList) ∧
    (weakSound "i".toList).proof = (weakSound "j".toList).proof :=
  ⟨weakSound_text _, weakSound_text _, spells_of_dec (by decide +kernel) (by decide +kernel),
    spells_of_dec (by decide +kernel) (by decide +kernel), spells_of_dec (by decide +kernel) (by decide +kernel),
    weakSound_read _, weakSound_read _, rfl⟩

end Verif.Props
