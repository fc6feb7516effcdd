import Verif.Props.Tamper

/-
C38 to C41, C44: what acceptance by `verify_proof` does not say, and the class of every error.

C38 to C41 are claims a reader of the W3C documents would expect. They do not hold of the code. Each comes as: the
full claim (`C3x_full`), a general theorem producing accepted documents outside the claim, the refutation of the
full claim, and the part that does hold (`_partial`).
-/

namespace Verif.Props
open Verif Spec

/-- The credential `v` read from `bs` is accepted under `pub` for `purpose`. -/
def AcceptedVC {E : Env} (pub : E.EdPub) (bs : Bytes) (purpose : ProofPurpose) (v : VC E) : Prop :=
  VC.parseJsonBytes E bs = .ok v ∧ ∃ r, verify E (VC E) pub bs purpose = .ok r ∧ r.verified = true

/-- The presentation `v` read from `bs` is accepted under `pub` for `purpose`. -/
def AcceptedVP {E : Env} (pub : E.EdPub) (bs : Bytes) (purpose : ProofPurpose) (v : VP E) : Prop :=
  VP.parseJsonBytes E bs = .ok v ∧ ∃ r, verify E (VP E) pub bs purpose = .ok r ∧ r.verified = true

/-- Every complete credential can be made acceptable under every key, with any multibase spelling of the
signature. -/
theorem accepted_vc {E : Env} (L : E.JcsLaws) (N : E.NumLaws) (K : E.EdLaws) (kp : E.EdKP) (v : VC E) (opts : Proof)
    (hv : VCComplete v) (hn : Survives E v.credentialSubject.1) (hd : v.credentialSubject.1.depth ≤ 126) (ho : GoodOptions E opts)
    (hp : opts.proofPurpose ≠ .unknown) (base : MBase) (text : Str)
    (ht : IsMultibase E base
      (E.edSign kp (message E (optionBytes E (unvalued opts)) (vcBytes (unsignedVC v)))) text) :
    ∃ t, ({ v with proof := some { opts with proofValue := text } } : VC E).toJson = .ok t ∧
      AcceptedVC (E.edPub kp) t.toBytes opts.proofPurpose
        { v with proof := some { opts with proofValue := text } } := by
  obtain ⟨t, h1, h2⟩ := C26_json_roundtrip N (v := { v with proof := some { opts with proofValue := text } })
    (by exact hv) hn hd
  refine ⟨t, h1, h2, ?_⟩
  have := (C33_vc L (E.edPub kp) t.toBytes opts.proofPurpose ⟨true, some (unsignedVC v)⟩).mpr
    ⟨_, _, h2, rfl, ⟨ho.1, ho.2, ho.3⟩, rfl, hp, hv, ⟨_, _, _, ht, hexEncode_spec _, K.verify_sign kp _⟩, rfl⟩
  exact ⟨_, this⟩

/-- The same for presentations. -/
theorem accepted_vp {E : Env} (L : E.JcsLaws) (N : E.NumLaws) (K : E.EdLaws) (kp : E.EdKP) (v : VP E) (opts : Proof)
    (hv : VPComplete v) (hn : ∀ c ∈ v.verifiableCredential, Survives E c.credentialSubject.1)
    (hd : ∀ c ∈ v.verifiableCredential, c.credentialSubject.1.depth ≤ 124)
    (ho : GoodOptions E opts) (hp : opts.proofPurpose ≠ .unknown) (base : MBase) (text : Str)
    (ht : IsMultibase E base
      (E.edSign kp (message E (optionBytes E (unvalued opts)) (vpBytes (unsignedVP v)))) text) :
    ∃ t, ({ v with proof := some { opts with proofValue := text } } : VP E).toJson = .ok t ∧
      AcceptedVP (E.edPub kp) t.toBytes opts.proofPurpose
        { v with proof := some { opts with proofValue := text } } := by
  obtain ⟨t, h1, h2⟩ := C27_json_roundtrip N (v := { v with proof := some { opts with proofValue := text } })
    (by exact hv) hn hd
  refine ⟨t, h1, h2, ?_⟩
  have := (C33_vp L (E.edPub kp) t.toBytes opts.proofPurpose ⟨true, some (unsignedVP v)⟩).mpr
    ⟨_, _, h2, rfl, ⟨ho.1, ho.2, ho.3⟩, rfl, hp, hv, ⟨_, _, _, ht, hexEncode_spec _, K.verify_sign kp _⟩, rfl⟩
  exact ⟨_, this⟩

/-! ### C38 -/

/-- The full claim of C38 for credentials: the proof value of an accepted credential is a base58btc text. -/
def C38_full (E : Env) : Prop :=
  ∀ (pub : E.EdPub) (bs : Bytes) (purpose : ProofPurpose) (v : VC E) (p : Proof),
    AcceptedVC pub bs purpose v → v.proof = some p → ∃ sig, IsMultibase58 sig p.proofValue

theorem not_multibase58 {sig : Bytes} {r : Str} : ¬ IsMultibase58 sig ('f' :: r) := by
  intro h
  have := h.unique
  simp [multibaseEncode58] at this

/-- C38: respelling the signature in base16 (`f` and the hex text) always gives another accepted credential. -/
theorem C38_respelled_vc {E : Env} (L : E.JcsLaws) (N : E.NumLaws) (K : E.EdLaws) (kp : E.EdKP) (v : VC E)
    (opts : Proof) (hv : VCComplete v) (hn : Survives E v.credentialSubject.1) (hd : v.credentialSubject.1.depth ≤ 126) (hproof : v.proof = none)
    (ho : GoodOptions E opts) (hp : opts.proofPurpose ≠ .unknown) (hval : opts.proofValue = []) :
    ∃ signed q sig hex t, sign E (VC E) kp v opts = .ok signed ∧ signed.proof = some q ∧
      IsMultibase58 sig q.proofValue ∧ IsHex sig hex ∧
      ({ signed with proof := some { q with proofValue := 'f' :: hex } } : VC E).toJson = .ok t ∧
      AcceptedVC (E.edPub kp) t.toBytes opts.proofPurpose
        { signed with proof := some { q with proofValue := 'f' :: hex } } ∧
      ∀ x, ¬ IsMultibase58 x ('f' :: hex) := by
  obtain ⟨c, t, s, pr, i, iss⟩ := v
  obtain ⟨oi, ot, op, ov, om, oc, oe, os⟩ := opts
  simp only at hproof hval
  subst hproof hval
  have hs := ((C32_vc L kp ⟨c, t, s, none, i, iss⟩ ⟨oi, ot, op, [], om, oc, oe, os⟩).1 _).mpr
    ⟨ho, hp, hv, _, multibaseEncode58_spec _, rfl⟩
  obtain ⟨tx, h1, h2⟩ := accepted_vc L N K kp ⟨c, t, s, none, i, iss⟩ ⟨oi, ot, op, [], om, oc, oe, os⟩ hv hn hd ho hp
    .base16Lower _ (.base16 (hexEncode_spec _))
  exact ⟨_, _, _, _, tx, hs, rfl, multibaseEncode58_spec _, hexEncode_spec _, h1, h2, fun _ => not_multibase58⟩

/-- C38: the same for presentations. -/
theorem C38_respelled_vp {E : Env} (L : E.JcsLaws) (N : E.NumLaws) (K : E.EdLaws) (kp : E.EdKP) (v : VP E)
    (opts : Proof) (hv : VPComplete v) (hn : ∀ c ∈ v.verifiableCredential, Survives E c.credentialSubject.1)
    (hd : ∀ c ∈ v.verifiableCredential, c.credentialSubject.1.depth ≤ 124)
    (hproof : v.proof = none) (ho : GoodOptions E opts) (hp : opts.proofPurpose ≠ .unknown)
    (hval : opts.proofValue = []) :
    ∃ signed q sig hex t, sign E (VP E) kp v opts = .ok signed ∧ signed.proof = some q ∧
      IsMultibase58 sig q.proofValue ∧ IsHex sig hex ∧
      ({ signed with proof := some { q with proofValue := 'f' :: hex } } : VP E).toJson = .ok t ∧
      AcceptedVP (E.edPub kp) t.toBytes opts.proofPurpose
        { signed with proof := some { q with proofValue := 'f' :: hex } } ∧
      ∀ x, ¬ IsMultibase58 x ('f' :: hex) := by
  obtain ⟨c, t, s, pr, i⟩ := v
  obtain ⟨oi, ot, op, ov, om, oc, oe, os⟩ := opts
  simp only at hproof hval
  subst hproof hval
  have hs := ((C32_vp L kp ⟨c, t, s, none, i⟩ ⟨oi, ot, op, [], om, oc, oe, os⟩).1 _).mpr
    ⟨ho, hp, hv, _, multibaseEncode58_spec _, rfl⟩
  obtain ⟨tx, h1, h2⟩ := accepted_vp L N K kp ⟨c, t, s, none, i⟩ ⟨oi, ot, op, [], om, oc, oe, os⟩ hv hn hd ho hp
    .base16Lower _ (.base16 (hexEncode_spec _))
  exact ⟨_, _, _, _, tx, hs, rfl, multibaseEncode58_spec _, hexEncode_spec _, h1, h2, fun _ => not_multibase58⟩

/-- `C38_respelled_vc`, `C38_respelled_vp`: the sample documents with the sample options. -/
example : VCComplete toyVC ∧ toyVC.credentialSubject.1.depth ≤ 126 ∧ toyVC.proof = none ∧
    GoodOptions Toy.env toyProof ∧ toyProof.proofPurpose ≠ .unknown ∧ toyProof.proofValue = [] :=
  ⟨toyVC_complete, by simp [toyVC, toySubject, Json.depth, Json.depthMembers], rfl, toyProof_good, by decide, rfl⟩

/-- C38: the full claim fails wherever anything can be signed at all. -/
theorem C38_full_false {E : Env} (L : E.JcsLaws) (N : E.NumLaws) (K : E.EdLaws) (kp : E.EdKP) (opts : Proof)
    (ho : GoodOptions E opts) (hp : opts.proofPurpose ≠ .unknown) : ¬ C38_full E := by
  intro h
  obtain ⟨t, _, h1⟩ := accepted_vc L N K kp
    (⟨["c".toList], ["t".toList], ⟨.bool true, trivial⟩, none, [], []⟩ : VC E) opts
    ⟨by simp, by simp, by simp⟩ (by simp [Survives, Json.nums]) (by simp [Json.depth]) ho hp .base16Lower _ (.base16 (hexEncode_spec _))
  obtain ⟨x, hx⟩ := h _ _ _ _ _ h1 rfl
  exact not_multibase58 hx

example : ¬ C38_full Toy.env :=
  C38_full_false Toy.jcsLaws Toy.numLaws Toy.edLaws (7 : UInt8) toyProof toyProof_good (by decide)

/-- C38, the part that holds: the proof value is some multibase text of bytes the key accepts for this document
with these options, and it is the base58btc text if it starts with `z`. Missing: it may start otherwise. -/
theorem C38_vc_partial {E : Env} (L : E.JcsLaws) (pub : E.EdPub) (bs : Bytes) (purpose : ProofPurpose) (v : VC E)
    (p : Proof) (h : AcceptedVC pub bs purpose v) (hp : v.proof = some p) :
    ∃ base sig hex, IsMultibase E base sig p.proofValue ∧ IsHex sig hex ∧
      E.edVerify pub (message E (optionBytes E (unvalued p)) (vcBytes (unsignedVC v))) hex = .ok true ∧
      (p.proofValue.head? = some 'z' → IsMultibase58 sig p.proofValue) := by
  obtain ⟨h0, r, hr⟩ := h
  obtain ⟨v', p', h1, h2, _, _, _, _, ⟨base, sig, hex, h3, h4, h5⟩, _⟩ := (C33_vc L _ _ _ _).mp hr
  rw [h0] at h1; cases h1
  rw [hp] at h2; cases h2
  refine ⟨base, sig, hex, h3, h4, h5, ?_⟩
  intro hz
  revert hz
  generalize p.proofValue = text at h3
  intro hz
  cases h3 with
  | base58 h => exact h
  | base16 h => simp at hz
  | base16Any _ h => simp at hz
  | other hc h =>
    exfalso
    simp only [List.head?_cons, Option.some.injEq] at hz
    subst hz
    simp [otherBases] at hc

/-- C38, the part that holds, for presentations. Missing: as above. -/
theorem C38_vp_partial {E : Env} (L : E.JcsLaws) (pub : E.EdPub) (bs : Bytes) (purpose : ProofPurpose) (v : VP E)
    (p : Proof) (h : AcceptedVP pub bs purpose v) (hp : v.proof = some p) :
    ∃ base sig hex, IsMultibase E base sig p.proofValue ∧ IsHex sig hex ∧
      E.edVerify pub (message E (optionBytes E (unvalued p)) (vpBytes (unsignedVP v))) hex = .ok true ∧
      (p.proofValue.head? = some 'z' → IsMultibase58 sig p.proofValue) := by
  obtain ⟨h0, r, hr⟩ := h
  obtain ⟨v', p', h1, h2, _, _, _, _, ⟨base, sig, hex, h3, h4, h5⟩, _⟩ := (C33_vp L _ _ _ _).mp hr
  rw [h0] at h1; cases h1
  rw [hp] at h2; cases h2
  refine ⟨base, sig, hex, h3, h4, h5, ?_⟩
  intro hz
  revert hz
  generalize p.proofValue = text at h3
  intro hz
  cases h3 with
  | base58 h => exact h
  | base16 h => simp at hz
  | base16Any _ h => simp at hz
  | other hc h =>
    exfalso
    simp only [List.head?_cons, Option.some.injEq] at hz
    subst hz
    simp [otherBases] at hc

/-- `C38_vc_partial`, `C38_vp_partial`: accepted documents exist; their proof values start with `z`. -/
example : (∃ bs v p, AcceptedVC (E := Toy.env) (7 : UInt8) bs .assertionMethod v ∧ v.proof = some p ∧
      p.proofValue.head? = some 'z') ∧
    ∃ bs v p, AcceptedVP (E := Toy.env) (7 : UInt8) bs .assertionMethod v ∧ v.proof = some p ∧
      p.proofValue.head? = some 'z' := by
  obtain ⟨s, q, _, bs, r, _, h1, h2, h3, h4, h5, _⟩ := toy_signed_vc
  obtain ⟨s', q', _, bs', r', _, h1', h2', h3', h4', h5', _⟩ := toy_signed_vp
  exact ⟨⟨bs, s, q, ⟨h5, r, h3, h4⟩, h1, by rw [h2.unique]; rfl⟩,
    bs', s', q', ⟨h5', r', h3', h4'⟩, h1', by rw [h2'.unique]; rfl⟩

/-! ### C39 -/

/-- The full claim of C39 for credentials. `expired` is the verdict of any clock on a date text. -/
def C39_full (E : Env) (expired : Str → Prop) : Prop :=
  ∀ (pub : E.EdPub) (bs : Bytes) (purpose : ProofPurpose) (v : VC E) (p : Proof) (e : Str),
    AcceptedVC pub bs purpose v → v.proof = some p → p.expires = some e → ¬ expired e

/-- C39: every text may stand as expiry date of an accepted credential and of an accepted presentation. -/
theorem C39_any_expiry {E : Env} (L : E.JcsLaws) (N : E.NumLaws) (K : E.EdLaws) (kp : E.EdKP) (opts : Proof)
    (ho : GoodOptions E opts) (hp : opts.proofPurpose ≠ .unknown) (hval : opts.proofValue = []) (e : Str) :
    (∀ v : VC E, VCComplete v → v.proof = none → ∃ signed q,
      sign E (VC E) kp v { opts with expires := some e } = .ok signed ∧ signed.proof = some q ∧ q.expires = some e ∧
      ∀ bs, VC.parseJsonBytes E bs = .ok signed → AcceptedVC (E.edPub kp) bs opts.proofPurpose signed) ∧
    (∀ v : VP E, VPComplete v → v.proof = none → ∃ signed q,
      sign E (VP E) kp v { opts with expires := some e } = .ok signed ∧ signed.proof = some q ∧ q.expires = some e ∧
      ∀ bs, VP.parseJsonBytes E bs = .ok signed → AcceptedVP (E.edPub kp) bs opts.proofPurpose signed) := by
  have hg : GoodOptions E { opts with expires := some e } := ⟨ho.1, ho.2, ho.3⟩
  refine ⟨fun v hv hn => ?_, fun v hv hn => ?_⟩
  · obtain ⟨s, h1, h2, _⟩ := C31_vc L N K kp v { opts with expires := some e } hv hn hg hp hval
    obtain ⟨_, _, _, text, _, rfl⟩ := ((C32_vc L kp v _).1 _).mp h1
    exact ⟨_, _, h1, rfl, rfl, fun bs hb => ⟨hb, _, h2 bs hb, rfl⟩⟩
  · obtain ⟨s, h1, h2, _⟩ := C31_vp L N K kp v { opts with expires := some e } hv hn hg hp hval
    obtain ⟨_, _, _, text, _, rfl⟩ := ((C32_vp L kp v _).1 _).mp h1
    exact ⟨_, _, h1, rfl, rfl, fun bs hb => ⟨hb, _, h2 bs hb, rfl⟩⟩

/-- C39: the full claim fails for every clock for which some date has passed. -/
theorem C39_full_false {E : Env} (L : E.JcsLaws) (N : E.NumLaws) (K : E.EdLaws) (kp : E.EdKP) (opts : Proof)
    (ho : GoodOptions E opts) (hp : opts.proofPurpose ≠ .unknown) (expired : Str → Prop) (e : Str) (he : expired e) :
    ¬ C39_full E expired := by
  intro h
  obtain ⟨t, _, h1⟩ := accepted_vc L N K kp
    (⟨["c".toList], ["t".toList], ⟨.bool true, trivial⟩, none, [], []⟩ : VC E) { opts with expires := some e }
    ⟨by simp, by simp, by simp⟩ (by simp [Survives, Json.nums]) (by simp [Json.depth]) ⟨ho.1, ho.2, ho.3⟩ hp .base16Lower _ (.base16 (hexEncode_spec _))
  exact h _ _ _ _ _ _ h1 rfl rfl he

/-- `C39_any_expiry`: the sample credential with an expiry in the past. -/
example : ∃ signed q, sign Toy.env (VC Toy.env) (7 : UInt8) toyVC { toyProof with expires := some "1970-01-01T00:00:00Z".toList } = .ok signed ∧
    signed.proof = some q ∧ q.expires = some "1970-01-01T00:00:00Z".toList :=
  let ⟨s, q, h1, h2, h3, _⟩ := (C39_any_expiry Toy.jcsLaws Toy.numLaws Toy.edLaws (7 : UInt8) toyProof toyProof_good (by decide) rfl
    "1970-01-01T00:00:00Z".toList).1 toyVC toyVC_complete rfl
  ⟨s, q, h1, h2, h3⟩

example : ¬ C39_full Toy.env (fun e => e = "2001-01-01T00:00:00Z".toList) :=
  C39_full_false Toy.jcsLaws Toy.numLaws Toy.edLaws (7 : UInt8) toyProof toyProof_good (by decide) _ _ rfl

/-- C39, the part that holds: the expiry text of an accepted credential is the one that was signed, or the
cryptography is broken. Missing: the text is never read as a date nor compared with a clock. -/
theorem C39_vc_partial {E : Env} (H : E.HashLaws) (L : E.JcsLaws) (kp : E.EdKP) (v : VC E) (opts : Proof)
    (signed : VC E) (q0 : Proof) (sig : Bytes) (hs : sign E (VC E) kp v opts = .ok signed)
    (hq0 : signed.proof = some q0) (hsig : IsMultibase58 sig q0.proofValue) (pub : E.EdPub) (bs : Bytes)
    (purpose : ProofPurpose) (w : VC E) (q : Proof) (base : MBase) (ha : AcceptedVC pub bs purpose w)
    (hq : w.proof = some q) (hqsig : IsMultibase E base sig q.proofValue) :
    q.expires = opts.expires ∨
    Broken E kp pub sig (optionBytes E opts) (vcBytes v) (optionBytes E (unvalued q)) (vcBytes (unsignedVC w)) := by
  obtain ⟨hw, r, hr, hok⟩ := ha
  rcases C35_vc H L kp v opts signed q0 sig hs hq0 hsig pub bs purpose r w q base hr hok hw hq hqsig with ⟨_, h⟩ | h
  · exact .inl (by rw [h]; rfl)
  · exact .inr h

/-- C39, the part that holds, for presentations. Missing: as above. -/
theorem C39_vp_partial {E : Env} (H : E.HashLaws) (L : E.JcsLaws) (kp : E.EdKP) (v : VP E) (opts : Proof)
    (signed : VP E) (q0 : Proof) (sig : Bytes) (hs : sign E (VP E) kp v opts = .ok signed)
    (hq0 : signed.proof = some q0) (hsig : IsMultibase58 sig q0.proofValue) (pub : E.EdPub) (bs : Bytes)
    (purpose : ProofPurpose) (w : VP E) (q : Proof) (base : MBase) (ha : AcceptedVP pub bs purpose w)
    (hq : w.proof = some q) (hqsig : IsMultibase E base sig q.proofValue) :
    q.expires = opts.expires ∨
    Broken E kp pub sig (optionBytes E opts) (vpBytes v) (optionBytes E (unvalued q)) (vpBytes (unsignedVP w)) := by
  obtain ⟨hw, r, hr, hok⟩ := ha
  rcases C35_vp H L kp v opts signed q0 sig hs hq0 hsig pub bs purpose r w q base hr hok hw hq hqsig with ⟨_, h⟩ | h
  · exact .inl (by rw [h]; rfl)
  · exact .inr h

/-- The hypotheses of `C39_vc_partial` and `C41_vc_partial` are met. -/
example : ∃ signed q0 sig bs w q, sign Toy.env (VC Toy.env) (7 : UInt8) toyVC toyProof = .ok signed ∧
    signed.proof = some q0 ∧ IsMultibase58 sig q0.proofValue ∧
    AcceptedVC (E := Toy.env) (7 : UInt8) bs .assertionMethod w ∧ w.proof = some q ∧
    IsMultibase Toy.env .base58Btc sig q.proofValue := by
  obtain ⟨s, q, sig, bs, r, h0, h1, h2, h3, h4, h5, h6⟩ := toy_signed_vc
  exact ⟨s, q, sig, bs, s, q, h0, h1, h2, ⟨h5, r, h3, h4⟩, h1, h6⟩

/-- The hypotheses of `C39_vp_partial`, `C40_partial` and `C41_vp_partial` are met. -/
example : ∃ signed q0 sig bs w q, sign Toy.env (VP Toy.env) (7 : UInt8) toyVP toyProof = .ok signed ∧
    signed.proof = some q0 ∧ IsMultibase58 sig q0.proofValue ∧
    AcceptedVP (E := Toy.env) (7 : UInt8) bs .assertionMethod w ∧ w.proof = some q ∧
    IsMultibase Toy.env .base58Btc sig q.proofValue := by
  obtain ⟨s, q, sig, bs, r, h0, h1, h2, h3, h4, h5, h6⟩ := toy_signed_vp
  exact ⟨s, q, sig, bs, s, q, h0, h1, h2, ⟨h5, r, h3, h4⟩, h1, h6⟩

/-! ### C40 -/

/-- The full claim of C40. -/
def C40_full (E : Env) : Prop :=
  ∀ (pub : E.EdPub) (bs : Bytes) (purpose : ProofPurpose) (v : VP E), AcceptedVP pub bs purpose v →
    ∀ c ∈ v.verifiableCredential, VCComplete c ∧
      (c.proof ≠ none → ∃ (pub' : E.EdPub) (bs' : Bytes) (purpose' : ProofPurpose), AcceptedVC pub' bs' purpose' c)

/-- C40: every non-empty list of credentials, valid or not, stands in an accepted presentation. -/
theorem C40_any_credentials {E : Env} (L : E.JcsLaws) (N : E.NumLaws) (K : E.EdLaws) (kp : E.EdKP) (opts : Proof)
    (ho : GoodOptions E opts) (hp : opts.proofPurpose ≠ .unknown) (hval : opts.proofValue = [])
    (contexts types : List Str) (holder : Option Str) (hc : contexts ≠ []) (ht : types ≠ []) (cs : List (VC E)) (hcs : cs ≠ [])
    (hn : ∀ c ∈ cs, Survives E c.credentialSubject.1) (hd : ∀ c ∈ cs, c.credentialSubject.1.depth ≤ 124) :
    ∃ signed t, sign E (VP E) kp ⟨contexts, types, cs, none, holder⟩ opts = .ok signed ∧
      signed.verifiableCredential = cs ∧ signed.toJson = .ok t ∧
      AcceptedVP (E.edPub kp) t.toBytes opts.proofPurpose signed := by
  obtain ⟨s, h1, h2, _⟩ := C31_vp L N K kp ⟨contexts, types, cs, none, holder⟩ opts ⟨hc, ht, hcs⟩ rfl ho hp hval
  obtain ⟨_, _, _, text, _, rfl⟩ := ((C32_vp L kp _ _).1 _).mp h1
  obtain ⟨t, h3, h4⟩ := C27_json_roundtrip N (v := ⟨contexts, types, cs, some ⟨opts.id, opts.typ, opts.proofPurpose,
    text, opts.verificationMethod, opts.created, opts.expires, opts.cryptosuite⟩, holder⟩) ⟨hc, ht, hcs⟩ hn hd
  exact ⟨_, t, h1, rfl, h3, h4, _, h2 _ h4, rfl⟩

/-- C40: the full claim fails wherever anything can be signed at all: a credential without context, type and
subject is carried by an accepted presentation. -/
theorem C40_full_false {E : Env} (L : E.JcsLaws) (N : E.NumLaws) (K : E.EdLaws) (kp : E.EdKP) (opts : Proof)
    (ho : GoodOptions E opts) (hp : opts.proofPurpose ≠ .unknown) (hval : opts.proofValue = []) : ¬ C40_full E := by
  intro h
  obtain ⟨s, t, _, h1, _, h2⟩ := C40_any_credentials L N K kp opts ho hp hval ["c".toList] ["t".toList] (some [])
    (by simp) (by simp) [⟨[], [], ⟨.null, trivial⟩, none, [], []⟩] (by simp) (by simp [Survives, Json.nums]) (by simp [Json.depth])
  have := (h _ _ _ _ h2 _ (by rw [h1]; exact List.mem_singleton.mpr rfl)).1
  exact this.1 rfl

/-- C40: nor do embedded proofs verify: a complete credential whose proof value is no multibase text at all (so no
key accepts it) is carried by an accepted presentation. -/
theorem C40_bad_proof {E : Env} (L : E.JcsLaws) (N : E.NumLaws) (K : E.EdLaws) (kp : E.EdKP) (opts : Proof)
    (ho : GoodOptions E opts) (hp : opts.proofPurpose ≠ .unknown) (hval : opts.proofValue = []) :
    ∃ (signed : VP E) (t : JSONValue) (c : VC E), AcceptedVP (E.edPub kp) t.toBytes opts.proofPurpose signed ∧
      c ∈ signed.verifiableCredential ∧ VCComplete c ∧ c.proof ≠ none ∧
      ∀ pub' bs' purpose', ¬ AcceptedVC pub' bs' purpose' c := by
  obtain ⟨s, t, _, h1, _, h2⟩ := C40_any_credentials L N K kp opts ho hp hval ["c".toList] ["t".toList] (some [])
    (by simp) (by simp) [⟨["c".toList], ["t".toList], ⟨.bool true, trivial⟩, some opts, [], []⟩] (by simp)
    (by simp [Survives, Json.nums]) (by simp [Json.depth])
  refine ⟨s, t, _, h2, by rw [h1]; exact List.mem_singleton.mpr rfl, ⟨by simp, by simp, by simp⟩, by simp, ?_⟩
  intro pub' bs' purpose' h
  obtain ⟨base, sig, hex, h3, _⟩ := C38_vc_partial L pub' bs' purpose' _ opts h rfl
  rw [hval] at h3
  cases h3 with
  | base58 h => have := h.unique; simp [multibaseEncode58] at this

/-- `C40_any_credentials`, `C40_bad_proof`: an empty credential, and one whose proof nobody accepts. -/
example : (∃ signed t, sign Toy.env (VP Toy.env) (7 : UInt8) ⟨["c".toList], ["t".toList], [VC.new Toy.env [] []], none, none⟩ toyProof = .ok signed ∧
      signed.toJson = .ok t ∧ AcceptedVP (E := Toy.env) (7 : UInt8) t.toBytes .assertionMethod signed) ∧
    ∃ (signed : VP Toy.env) (c : VC Toy.env), c ∈ signed.verifiableCredential ∧ ∀ pub bs purpose, ¬ AcceptedVC pub bs purpose c := by
  obtain ⟨s, t, h1, _, h2, h3⟩ := C40_any_credentials Toy.jcsLaws Toy.numLaws Toy.edLaws (7 : UInt8) toyProof toyProof_good (by decide) rfl
    ["c".toList] ["t".toList] none (by simp) (by simp) [VC.new Toy.env [] []] (by simp) (fun _ _ => Toy.survives _)
    (by simp [VC.new, valueNull, Json.depth])
  obtain ⟨s', _, c, _, h4, _, _, h5⟩ := C40_bad_proof (E := Toy.env) Toy.jcsLaws Toy.numLaws Toy.edLaws (7 : UInt8) toyProof toyProof_good
    (by decide) rfl
  exact ⟨⟨s, t, h1, h2, h3⟩, s', c, h4, h5⟩

example : ¬ C40_full Toy.env :=
  C40_full_false Toy.jcsLaws Toy.numLaws Toy.edLaws (7 : UInt8) toyProof toyProof_good (by decide) rfl

/-- C40, the part that holds: an accepted presentation has at least one credential, and the embedded credentials
(with their proofs) are the ones that were signed, up to number spelling, or the cryptography is broken. Missing:
the embedded credentials are neither validated nor verified. -/
theorem C40_partial {E : Env} (H : E.HashLaws) (L : E.JcsLaws) (kp : E.EdKP) (v : VP E) (opts : Proof)
    (signed : VP E) (q0 : Proof) (sig : Bytes) (hs : sign E (VP E) kp v opts = .ok signed)
    (hq0 : signed.proof = some q0) (hsig : IsMultibase58 sig q0.proofValue) (pub : E.EdPub) (bs : Bytes)
    (purpose : ProofPurpose) (w : VP E) (q : Proof) (base : MBase) (ha : AcceptedVP pub bs purpose w)
    (hq : w.proof = some q) (hqsig : IsMultibase E base sig q.proofValue) :
    w.verifiableCredential ≠ [] ∧
    (List.Forall₂ SameVC v.verifiableCredential w.verifiableCredential ∨
     Broken E kp pub sig (optionBytes E opts) (vpBytes v) (optionBytes E (unvalued q)) (vpBytes (unsignedVP w))) := by
  obtain ⟨hw, r, hr, hok⟩ := ha
  refine ⟨?_, ?_⟩
  · obtain ⟨w', q', h1, _, _, _, _, h3, _⟩ := (C33_vp L pub bs purpose r).mp ⟨hr, hok⟩
    rw [hw] at h1; cases h1
    exact h3.2.2
  · rcases C35_vp H L kp v opts signed q0 sig hs hq0 hsig pub bs purpose r w q base hr hok hw hq hqsig with ⟨h, _⟩ | h
    · exact .inl h.credentials
    · exact .inr h

/-! ### C41 -/

/-- The full claim of C41 for credentials. `keyOf` finds the key of a verification method, in any way. -/
def C41_full (E : Env) (keyOf : Str → Option E.EdPub) : Prop :=
  ∀ (pub : E.EdPub) (bs : Bytes) (purpose : ProofPurpose) (v : VC E) (p : Proof),
    AcceptedVC pub bs purpose v → v.proof = some p → keyOf p.verificationMethod = some pub

/-- C41: whatever the verification method, issuer and holder say, the document is signed by every key, and accepted
under that key. -/
theorem C41_any_key {E : Env} (L : E.JcsLaws) (N : E.NumLaws) (K : E.EdLaws) (opts : Proof)
    (ho : GoodOptions E opts) (hp : opts.proofPurpose ≠ .unknown) (hval : opts.proofValue = []) (kp : E.EdKP) :
    (∀ v : VC E, VCComplete v → v.proof = none → ∃ signed q, sign E (VC E) kp v opts = .ok signed ∧
      signed.issuer = v.issuer ∧ signed.proof = some q ∧ q.verificationMethod = opts.verificationMethod ∧
      ∀ bs, VC.parseJsonBytes E bs = .ok signed → AcceptedVC (E.edPub kp) bs opts.proofPurpose signed) ∧
    (∀ v : VP E, VPComplete v → v.proof = none → ∃ signed q, sign E (VP E) kp v opts = .ok signed ∧
      signed.holder = v.holder ∧ signed.proof = some q ∧ q.verificationMethod = opts.verificationMethod ∧
      ∀ bs, VP.parseJsonBytes E bs = .ok signed → AcceptedVP (E.edPub kp) bs opts.proofPurpose signed) := by
  refine ⟨fun v hv hn => ?_, fun v hv hn => ?_⟩
  · obtain ⟨s, h1, h2, _⟩ := C31_vc L N K kp v opts hv hn ho hp hval
    obtain ⟨_, _, _, text, _, rfl⟩ := ((C32_vc L kp v _).1 _).mp h1
    exact ⟨_, _, h1, rfl, rfl, rfl, fun bs hb => ⟨hb, _, h2 bs hb, rfl⟩⟩
  · obtain ⟨s, h1, h2, _⟩ := C31_vp L N K kp v opts hv hn ho hp hval
    obtain ⟨_, _, _, text, _, rfl⟩ := ((C32_vp L kp v _).1 _).mp h1
    exact ⟨_, _, h1, rfl, rfl, rfl, fun bs hb => ⟨hb, _, h2 bs hb, rfl⟩⟩

/-- C41: the full claim fails for every way of finding keys, as soon as there are two keys. -/
theorem C41_full_false {E : Env} (L : E.JcsLaws) (N : E.NumLaws) (K : E.EdLaws) (opts : Proof)
    (ho : GoodOptions E opts) (hp : opts.proofPurpose ≠ .unknown) (k1 k2 : E.EdKP) (hk : E.edPub k1 ≠ E.edPub k2)
    (keyOf : Str → Option E.EdPub) : ¬ C41_full E keyOf := by
  intro h
  have go : ∀ k : E.EdKP, keyOf opts.verificationMethod = some (E.edPub k) := by
    intro k
    obtain ⟨t, _, h1⟩ := accepted_vc L N K k
      (⟨["c".toList], ["t".toList], ⟨.bool true, trivial⟩, none, [], []⟩ : VC E) opts
      ⟨by simp, by simp, by simp⟩ (by simp [Survives, Json.nums]) (by simp [Json.depth]) ho hp .base16Lower _ (.base16 (hexEncode_spec _))
    have := h _ _ _ _ _ h1 rfl
    exact this
  exact hk (Option.some.inj ((go k1).symm.trans (go k2)))

/-- `C41_any_key`: the sample credential, signed by key 8 under the same verification method. -/
example : ∃ signed q, sign Toy.env (VC Toy.env) (8 : UInt8) toyVC toyProof = .ok signed ∧ signed.proof = some q ∧
    q.verificationMethod = toyProof.verificationMethod :=
  let ⟨s, q, h1, _, h2, h3, _⟩ := (C41_any_key Toy.jcsLaws Toy.numLaws Toy.edLaws toyProof toyProof_good (by decide) rfl (8 : UInt8)).1 toyVC
    toyVC_complete rfl
  ⟨s, q, h1, h2, h3⟩

example (keyOf : Str → Option UInt8) : ¬ C41_full Toy.env keyOf :=
  C41_full_false Toy.jcsLaws Toy.numLaws Toy.edLaws toyProof toyProof_good (by decide) (7 : UInt8) (8 : UInt8)
    (show (7 : UInt8) ≠ 8 by decide) keyOf

/-- C41, the part that holds: verification method and issuer of an accepted credential are the ones that were
signed, or the cryptography is broken. Missing: any link between them and the key. -/
theorem C41_vc_partial {E : Env} (H : E.HashLaws) (L : E.JcsLaws) (kp : E.EdKP) (v : VC E) (opts : Proof)
    (signed : VC E) (q0 : Proof) (sig : Bytes) (hs : sign E (VC E) kp v opts = .ok signed)
    (hq0 : signed.proof = some q0) (hsig : IsMultibase58 sig q0.proofValue) (pub : E.EdPub) (bs : Bytes)
    (purpose : ProofPurpose) (w : VC E) (q : Proof) (base : MBase) (ha : AcceptedVC pub bs purpose w)
    (hq : w.proof = some q) (hqsig : IsMultibase E base sig q.proofValue) :
    (q.verificationMethod = opts.verificationMethod ∧ w.issuer = v.issuer) ∨
    Broken E kp pub sig (optionBytes E opts) (vcBytes v) (optionBytes E (unvalued q)) (vcBytes (unsignedVC w)) := by
  obtain ⟨hw, r, hr, hok⟩ := ha
  rcases C35_vc H L kp v opts signed q0 sig hs hq0 hsig pub bs purpose r w q base hr hok hw hq hqsig with ⟨h', h⟩ | h
  · exact .inl ⟨by rw [h]; rfl, h'.issuer.symm⟩
  · exact .inr h

/-- C41, the part that holds, for presentations. Missing: as above. -/
theorem C41_vp_partial {E : Env} (H : E.HashLaws) (L : E.JcsLaws) (kp : E.EdKP) (v : VP E) (opts : Proof)
    (signed : VP E) (q0 : Proof) (sig : Bytes) (hs : sign E (VP E) kp v opts = .ok signed)
    (hq0 : signed.proof = some q0) (hsig : IsMultibase58 sig q0.proofValue) (pub : E.EdPub) (bs : Bytes)
    (purpose : ProofPurpose) (w : VP E) (q : Proof) (base : MBase) (ha : AcceptedVP pub bs purpose w)
    (hq : w.proof = some q) (hqsig : IsMultibase E base sig q.proofValue) :
    (q.verificationMethod = opts.verificationMethod ∧ w.holder = v.holder) ∨
    Broken E kp pub sig (optionBytes E opts) (vpBytes v) (optionBytes E (unvalued q)) (vpBytes (unsignedVP w)) := by
  obtain ⟨hw, r, hr, hok⟩ := ha
  rcases C35_vp H L kp v opts signed q0 sig hs hq0 hsig pub bs purpose r w q base hr hok hw hq hqsig with ⟨h', h⟩ | h
  · exact .inl ⟨by rw [h]; rfl, h'.holder.symm⟩
  · exact .inr h

/-! ### C44 -/

theorem vc_parse_error {E : Env} (bs : Bytes) (e : ProofError)
    (h : (Proofable.parseJsonBytes bs : Except ProofError (VC E)) = .error e) : ∃ m, e = .proofGenerationError m := by
  have h' : VC.parseJsonBytes E bs = .error e := h
  unfold VC.parseJsonBytes at h'
  split at h' <;> cases h'
  exact ⟨_, rfl⟩

theorem vp_parse_error {E : Env} (bs : Bytes) (e : ProofError)
    (h : (Proofable.parseJsonBytes bs : Except ProofError (VP E)) = .error e) : ∃ m, e = .proofGenerationError m := by
  have h' : VP.parseJsonBytes E bs = .error e := h
  unfold VP.parseJsonBytes at h'
  split at h' <;> cases h'
  exact ⟨_, rfl⟩

/-- C44 (credentials): the class of every verification error. -/
theorem C44_vc {E : Env} (L : E.JcsLaws) (pub : E.EdPub) (bs : Bytes) (purpose : ProofPurpose) :
    (∀ e, verify E (VC E) pub bs purpose = .error e →
      (∃ m, e = .proofGenerationError m) ∨ ∃ m, e = .proofVerificationError m) ∧
    ((∃ m, verify E (VC E) pub bs purpose = .error (.proofGenerationError m)) ↔
      (∀ v, VC.parseJsonBytes E bs ≠ .ok v) ∨
      ∃ v p base sig, VC.parseJsonBytes E bs = .ok v ∧ v.proof = some p ∧ p.typ ≠ [] ∧ p.proofPurpose = purpose ∧
        purpose ≠ .unknown ∧ IsMultibase E base sig p.proofValue ∧ (¬ GoodOptions E p ∨ ¬ VCComplete v)) ∧
    ((∃ m, verify E (VC E) pub bs purpose = .error (.proofVerificationError m)) ↔
      ∃ v, VC.parseJsonBytes E bs = .ok v ∧ (v.proof = none ∨ ∃ p, v.proof = some p ∧
        (p.typ = [] ∨ p.proofPurpose = .unknown ∨ p.proofPurpose ≠ purpose ∨
          (∀ base sig, ¬ IsMultibase E base sig p.proofValue) ∨
          (GoodOptions E p ∧ VCComplete v ∧ ∃ base sig hex m, IsMultibase E base sig p.proofValue ∧ IsHex sig hex ∧
            E.edVerify pub (message E (optionBytes E (unvalued p)) (vcBytes (unsignedVC v))) hex = .error m)))) := by
  obtain ⟨h1, h2, h3⟩ := verify_error_iff (T := VC E) L (fun bs e => vc_parse_error bs e) pub bs purpose
  have hc : ∀ v : VC E, (∀ t, Proofable.toJcs (Proofable.removeProof v) ≠ .ok t) ↔ ¬ VCComplete v := by
    intro v
    have := (C24_serialise_iff (unsignedVC v)).2.1
    rw [show VCComplete v = VCComplete (unsignedVC v) from rfl, ← this]
    exact not_exists.symm
  refine ⟨h1, ?_, ?_⟩
  · rw [h2]
    simp only [hc]
    rfl
  · rw [h3]
    refine exists_congr fun v => and_congr Iff.rfl (or_congr Iff.rfl (exists_congr fun p => and_congr Iff.rfl
      (or_congr Iff.rfl (or_congr Iff.rfl (or_congr Iff.rfl (or_congr Iff.rfl (and_congr Iff.rfl ?_)))))))
    constructor
    · rintro ⟨base, sig, t, m, h4, h5, h6⟩
      obtain ⟨h7, h8⟩ := (vc_toJcs_iff L _ t).mp h5
      rw [h8] at h6
      exact ⟨h7, base, sig, _, m, h4, hexEncode_spec _, h6⟩
    · rintro ⟨h7, base, sig, hex, m, h4, h5, h6⟩
      refine ⟨base, sig, canonicalText E (vcObject (unsignedVC v)), m, h4, C49_vc_canonical L (unsignedVC v) h7, ?_⟩
      rw [← utf8_eq, ← h5.unique]; exact h6

/-- C44 (presentations): the class of every verification error. -/
theorem C44_vp {E : Env} (L : E.JcsLaws) (pub : E.EdPub) (bs : Bytes) (purpose : ProofPurpose) :
    (∀ e, verify E (VP E) pub bs purpose = .error e →
      (∃ m, e = .proofGenerationError m) ∨ ∃ m, e = .proofVerificationError m) ∧
    ((∃ m, verify E (VP E) pub bs purpose = .error (.proofGenerationError m)) ↔
      (∀ v, VP.parseJsonBytes E bs ≠ .ok v) ∨
      ∃ v p base sig, VP.parseJsonBytes E bs = .ok v ∧ v.proof = some p ∧ p.typ ≠ [] ∧ p.proofPurpose = purpose ∧
        purpose ≠ .unknown ∧ IsMultibase E base sig p.proofValue ∧ (¬ GoodOptions E p ∨ ¬ VPComplete v)) ∧
    ((∃ m, verify E (VP E) pub bs purpose = .error (.proofVerificationError m)) ↔
      ∃ v, VP.parseJsonBytes E bs = .ok v ∧ (v.proof = none ∨ ∃ p, v.proof = some p ∧
        (p.typ = [] ∨ p.proofPurpose = .unknown ∨ p.proofPurpose ≠ purpose ∨
          (∀ base sig, ¬ IsMultibase E base sig p.proofValue) ∨
          (GoodOptions E p ∧ VPComplete v ∧ ∃ base sig hex m, IsMultibase E base sig p.proofValue ∧ IsHex sig hex ∧
            E.edVerify pub (message E (optionBytes E (unvalued p)) (vpBytes (unsignedVP v))) hex = .error m)))) := by
  obtain ⟨h1, h2, h3⟩ := verify_error_iff (T := VP E) L (fun bs e => vp_parse_error bs e) pub bs purpose
  have hc : ∀ v : VP E, (∀ t, Proofable.toJcs (Proofable.removeProof v) ≠ .ok t) ↔ ¬ VPComplete v := by
    intro v
    have := (C25_serialise_iff (unsignedVP v)).2.1
    rw [show VPComplete v = VPComplete (unsignedVP v) from rfl, ← this]
    exact not_exists.symm
  refine ⟨h1, ?_, ?_⟩
  · rw [h2]
    simp only [hc]
    rfl
  · rw [h3]
    refine exists_congr fun v => and_congr Iff.rfl (or_congr Iff.rfl (exists_congr fun p => and_congr Iff.rfl
      (or_congr Iff.rfl (or_congr Iff.rfl (or_congr Iff.rfl (or_congr Iff.rfl (and_congr Iff.rfl ?_)))))))
    constructor
    · rintro ⟨base, sig, t, m, h4, h5, h6⟩
      obtain ⟨h7, h8⟩ := (vp_toJcs_iff L _ t).mp h5
      rw [h8] at h6
      exact ⟨h7, base, sig, _, m, h4, hexEncode_spec _, h6⟩
    · rintro ⟨h7, base, sig, hex, m, h4, h5, h6⟩
      refine ⟨base, sig, canonicalText E (vpObject (unsignedVP v)), m, h4, C49_vp_canonical L (unsignedVP v) h7, ?_⟩
      rw [← utf8_eq, ← h5.unique]; exact h6

/-- Both classes occur: bytes that are no JSON, and a credential without proof. -/
example : (∃ m, verify Toy.env (VC Toy.env) (7 : UInt8) [] .assertionMethod = .error (.proofGenerationError m)) ∧
    ∃ t m, toyVC.toJson = .ok t ∧
      verify Toy.env (VC Toy.env) (7 : UInt8) t.toBytes .assertionMethod = .error (.proofVerificationError m) := by
  refine ⟨⟨_, rfl⟩, ?_⟩
  obtain ⟨t, h1, h2⟩ := C26_json_roundtrip Toy.numLaws toyVC toyVC_complete
    (Toy.survives _) (by simp [toyVC, toySubject, Json.depth, Json.depthMembers])
  obtain ⟨m, h⟩ := (C44_vc Toy.jcsLaws (7 : UInt8) t.toBytes .assertionMethod).2.2.mpr ⟨_, h2, .inl rfl⟩
  exact ⟨t, m, h1, h⟩

/-- The same for presentations. -/
example : (∃ m, verify Toy.env (VP Toy.env) (7 : UInt8) [] .assertionMethod = .error (.proofGenerationError m)) ∧
    ∃ t m, toyVP.toJson = .ok t ∧
      verify Toy.env (VP Toy.env) (7 : UInt8) t.toBytes .assertionMethod = .error (.proofVerificationError m) := by
  refine ⟨⟨_, rfl⟩, ?_⟩
  obtain ⟨t, h1, h2⟩ := C27_json_roundtrip Toy.numLaws toyVP toyVP_complete (fun _ _ => Toy.survives _)
    (fun _ hc => by revert hc; simp [toyVP]; rintro rfl; simp [toyVC, toySubject, Json.depth, Json.depthMembers])
  obtain ⟨m, h⟩ := (C44_vp Toy.jcsLaws (7 : UInt8) t.toBytes .assertionMethod).2.2.mpr ⟨_, h2, .inl rfl⟩
  exact ⟨t, m, h1, h⟩

end Verif.Props
