import Verif.Props.Secrets

/-
C100: the same documents under other verifiers. RFC 8032 (5.1.7) leaves it to a verifier whether it checks the equation as it is or
multiplied by eight; ed25519-dalek has besides `verify` a `verify_strict`, which refuses keys and first halves of small order. The
library asks its dependency (core/src/verifiable/proof/eddsa.rs, core/src/verifiable/proof/verifier.rs); another program that
verifies the same credential may ask another.
-/

namespace Verif.Spec
open Verif Verif.Props

/-- A way to verify signatures: public key, message, signature. -/
abbrev Verifier := Bytes → Bytes → Bytes → Prop

/-- The equation of RFC 8032, 5.1.7, as the program in its section 6 checks it. -/
def plainly : Verifier := fun key m sig => Ed25519.verify key m sig = true

/-- The equation multiplied by eight, [8][S]B = [8]R + [8][k]A'. -/
def byEight : Verifier := fun key m sig => ∃ A R, key.length = 32 ∧ sig.length = 64 ∧ Ed25519.pointDecompress key = some A ∧
  Ed25519.pointDecompress (sig.take 32) = some R ∧ Blake3.leVal (sig.drop 32) < groupOrder ∧
  Ed25519.pointEqual (Ed25519.pointMul 8 (Ed25519.pointMul (Blake3.leVal (sig.drop 32)) Ed25519.base))
    (Ed25519.pointAdd (Ed25519.pointMul 8 R) (Ed25519.pointMul 8 (Ed25519.pointMul (hashNumber (sig.take 32) key m) A))) = true

/-- Keys and first halves among the eight are refused. -/
def strictly : Verifier := fun key m sig => Ed25519.verify key m sig = true ∧ hexEncode key ∉ smallKeys ∧
  hexEncode (sig.take 32) ∉ smallKeys

/-- A credential that another verifier accepts: everything the library asks for, and its own opinion on the signature. -/
def OtherVC (V : Verifier) {E : Env} (pub : E.EdPub) (bs : Bytes) (purpose : ProofPurpose) (v : VC E) : Prop :=
  VC.parseJsonBytes E bs = .ok v ∧ ∃ q base sig, v.proof = some q ∧ GoodOptions E q ∧ q.proofPurpose = purpose ∧ purpose ≠ .unknown ∧
    VCComplete v ∧ IsMultibase E base sig q.proofValue ∧
    V (E.edPubBytes pub) (message E (optionBytes E (unvalued q)) (vcBytes (unsignedVC v))) sig

/-- A presentation. -/
def OtherVP (V : Verifier) {E : Env} (pub : E.EdPub) (bs : Bytes) (purpose : ProofPurpose) (v : VP E) : Prop :=
  VP.parseJsonBytes E bs = .ok v ∧ ∃ q base sig, v.proof = some q ∧ GoodOptions E q ∧ q.proofPurpose = purpose ∧ purpose ≠ .unknown ∧
    VPComplete v ∧ IsMultibase E base sig q.proofValue ∧
    V (E.edPubBytes pub) (message E (optionBytes E (unvalued q)) (vpBytes (unsignedVP v))) sig

/-- What the number `x` for the secret makes if the point of one of the eight keys is added to the first half. -/
def shiftedFrom (small : Bytes) (x r : Nat) (key m : Bytes) : Option Bytes :=
  (Ed25519.pointDecompress small).map fun T =>
    let head := Ed25519.pointCompress (Ed25519.pointAdd (Ed25519.pointMul (r % groupOrder) Ed25519.base) T)
    head ++ Blake3.leBytes 32 ((r + hashNumber head key m * x) % groupOrder)

end Verif.Spec

namespace Verif.Ed25519
open Spec
open Blake3 (leVal leBytes leBytes_length)
open Edwards (Point)

theorem byEight_iff (key m sig : Bytes) : byEight key m sig ↔ ∃ A R : Point D, ∃ s, key = enc A ∧ s < q ∧
    sig = enc R ++ leBytes 32 s ∧ 8 • (s • B) = 8 • (R + hashModQ (enc R ++ key ++ m) • A) := by
  constructor
  · rintro ⟨A, R, h1, h2, hA, hR, hs, h⟩
    obtain ⟨a, ha, ra⟩ := pointDecompress_some hA
    obtain ⟨r, hr, rr⟩ := pointDecompress_some hR
    have hlen : (sig.drop 32).length = 32 := by rw [List.length_drop, h2]
    refine ⟨a, r, leVal (sig.drop 32), ha, hs, ?_, ?_⟩
    · have hb := leBytes_leVal (sig.drop 32)
      rw [hlen] at hb
      rw [← hr, hb, List.take_append_drop]
    · rw [← hr, nsmul_add]
      rw [groupOrder_eq] at hs
      exact (pointEqual_iff (rep_mul (by decide) (rep_mul (lt_trans hs q_lt) rep_base))
        (rep_add (rep_mul (by decide) rr) (rep_mul (by decide) (rep_mul (lt_trans (hashModQ_lt _) q_lt) ra)))).mp h
  · rintro ⟨A, R, s, rfl, hs, rfl, e⟩
    have ht : (enc R ++ leBytes 32 s).take 32 = enc R := List.take_left' (enc_length R)
    have hd : (enc R ++ leBytes 32 s).drop 32 = leBytes 32 s := List.drop_left' (enc_length R)
    obtain ⟨QA, h1, h2⟩ := pointDecompress_enc A
    obtain ⟨QR, h3, h4⟩ := pointDecompress_enc R
    have hv : leVal (leBytes 32 s) = s := leVal_leBytes (lt_trans hs (by decide +kernel))
    refine ⟨QA, QR, enc_length A, by rw [List.length_append, enc_length, leBytes_length], h1, by rw [ht]; exact h3, ?_, ?_⟩
    · rw [hd, hv]
      exact hs
    · rw [hd, hv, ht, hashNumber_eq]
      rw [nsmul_add] at e
      exact (pointEqual_iff (rep_mul (by decide) (rep_mul (lt_trans hs q_lt) rep_base))
        (rep_add (rep_mul (by decide) h4) (rep_mul (by decide) (rep_mul (lt_trans (hashModQ_lt _) q_lt) h2)))).mpr e

/-- Eight kills no difference of multiples of the base point. -/
theorem eight_B {a b : Nat} (ha : a < q) (hb : b < q) (h : 8 • (a • B) = 8 • (b • B)) : a = b := by
  rw [← mul_nsmul', ← mul_nsmul', smul_B_iff] at h
  have hm : a ≡ b [MOD q] := Nat.ModEq.cancel_left_of_coprime (c := 8) coprime_q_eight h
  unfold Nat.ModEq at hm
  rwa [Nat.mod_eq_of_lt ha, Nat.mod_eq_of_lt hb] at hm

/-- Among the multiples of the base point eight kills one. -/
theorem small_B {n : Nat} (h : 8 • (n • B) = 0) : n • B = 0 := by
  rw [← mul_nsmul', show (0 : Point D) = 0 • B from (zero_nsmul _).symm, smul_B_iff] at h
  rw [show (0 : Point D) = 0 • B from (zero_nsmul _).symm, smul_B_iff]
  exact Nat.ModEq.cancel_left_of_coprime (c := 8) coprime_q_eight (by rwa [Nat.mul_zero])

theorem shifted_some {small : Bytes} {T : Point D} (h : small = enc T) (x r : Nat) (key m : Bytes) :
    shiftedFrom small x r key m = some (enc ((r % q) • B + T) ++
      leBytes 32 ((r + hashModQ (enc ((r % q) • B + T) ++ key ++ m) * x) % q)) := by
  obtain ⟨Q, h1, h2⟩ := pointDecompress_enc T
  have hr : r % q < q := Nat.mod_lt _ q_prime.pos
  unfold shiftedFrom
  rw [h, h1, Option.map_some]
  dsimp only
  rw [groupOrder_eq, pointCompress_eq (rep_add (rep_mul (lt_trans hr q_lt) rep_base) h2)]
  rfl

theorem shifted_eq {secret : Bytes} {x r k : Nat} (hx : x % q = secretScalar secret % q) :
    ((r + k * x) % q) • B = (r % q) • B + k • (secretScalar secret • B) := by
  rw [← mul_nsmul', ← add_nsmul, smul_B_iff, Nat.mod_mod, Nat.mod_add_mod, Nat.add_mod, Nat.mul_mod, hx, ← Nat.mul_mod, ← Nat.add_mod]

end Verif.Ed25519

namespace Verif.Props
open Verif Spec
open Verif.Ed25519 (secretScalar secretPrefix)

/-- The eight but the first are the points other than the neutral one. -/
theorem mem_tail (small : Bytes) : hexEncode small ∈ smallKeys.tail ↔ ∃ T, small = Ed25519.enc T ∧ 8 • T = 0 ∧ T ≠ 0 := by
  have hz : hexEncode (Ed25519.enc 0) ∉ smallKeys.tail := by rw [enc_zero]; decide +kernel
  constructor
  · intro h
    obtain ⟨T, e, h8⟩ := small_point (List.mem_of_mem_tail h)
    refine ⟨T, e, h8, ?_⟩
    rintro rfl
    rw [e] at h
    exact hz h
  · rintro ⟨T, rfl, h8, h0⟩
    have h := (mem_smallKeys T).mpr h8
    rw [show smallKeys = hexEncode neutralKey :: smallKeys.tail by decide +kernel, List.mem_cons] at h
    rcases h with h | h
    · rw [← enc_zero] at h
      exact absurd (Ed25519.enc_injective (hexEncode_injective h)) h0
    · exact h

theorem head_zero : hexEncode (1 :: List.replicate 31 0) ∈ smallKeys := by decide +kernel

/-- A first half among the eight, under the key of a key pair. -/
theorem small_head {secret m sig : Bytes} (h : Ed25519.verify (Ed25519.publicKey secret) m sig = true)
    (hs : hexEncode (sig.take 32) ∈ smallKeys) : sig.take 32 = 1 :: List.replicate 31 0 := by
  rw [Ed25519.publicKey_eq] at h
  obtain ⟨R, e1, hlt, e2⟩ := Ed25519.verify_point h
  rw [e1, mem_smallKeys] at hs
  rw [← mul_nsmul'] at e2
  generalize Ed25519.hashModQ (sig.take 32 ++ Ed25519.enc (secretScalar secret • Ed25519.B) ++ m) * secretScalar secret = n at e2
  have e3 : (n % Ed25519.q) • Ed25519.B = n • Ed25519.B := (Ed25519.smul_B_iff _ _).mpr (Nat.mod_mod _ _)
  rw [← e3] at e2
  have e4 := congrArg (fun g => 8 • g) e2
  rw [nsmul_add, hs, zero_add] at e4
  rw [Ed25519.eight_B hlt (Nat.mod_lt _ Ed25519.q_prime.pos) e4] at e2
  have h0 : R = 0 := by
    have := e2.symm
    rwa [add_eq_right] at this
  rw [e1, h0, enc_zero]
  rfl

/-- The two opinions on what `shiftedFrom` makes. -/
theorem shifted_opinions {secret small : Bytes} (hk : hexEncode small ∈ smallKeys.tail) {x : Nat}
    (hx : x % Ed25519.q = secretScalar secret % Ed25519.q) (r : Nat) (m : Bytes) :
    ∃ sig, shiftedFrom small x r (Ed25519.publicKey secret) m = some sig ∧ byEight (Ed25519.publicKey secret) m sig ∧
      ¬ plainly (Ed25519.publicKey secret) m sig := by
  obtain ⟨T, rfl, h8, h0⟩ := (mem_tail small).mp hk
  refine ⟨_, Ed25519.shifted_some rfl x r _ m, ?_, ?_⟩
  · refine (Ed25519.byEight_iff _ _ _).mpr ⟨_, _, _, Ed25519.publicKey_eq secret, Nat.mod_lt _ Ed25519.q_prime.pos, rfl, ?_⟩
    rw [Ed25519.shifted_eq hx, nsmul_add, nsmul_add, nsmul_add, h8, add_zero]
  · intro h
    obtain ⟨A, R, s, eA, hs, e0, e⟩ := (Ed25519.verify_iff _ _ _).mp h
    rw [Ed25519.publicKey_eq] at eA
    cases Ed25519.enc_injective eA
    obtain ⟨eR, es⟩ := List.append_inj e0 (by rw [Ed25519.enc_length, Ed25519.enc_length])
    cases Ed25519.enc_injective eR
    have hss := congrArg Blake3.leVal es
    rw [Ed25519.leVal_leBytes (lt_trans (Nat.mod_lt _ Ed25519.q_prime.pos) (by decide +kernel)),
      Ed25519.leVal_leBytes (lt_trans hs (by decide +kernel))] at hss
    rw [← hss, Ed25519.shifted_eq hx] at e
    have h2 := add_right_cancel e
    have h3 := h2.symm
    rw [add_eq_left] at h3
    exact h0 h3

/-- C100: the library is the first of the three, for every key that is a point. -/
theorem C100_library {E : Env} (V : Rfc8032Verify E) (L : E.JcsLaws) (pub : E.EdPub)
    (hd : Ed25519.pointDecompress (E.edPubBytes pub) ≠ none) (bs : Bytes) (purpose : ProofPurpose) :
    (∀ v : VC E, AcceptedVC pub bs purpose v ↔ OtherVC plainly pub bs purpose v) ∧
    ∀ v : VP E, AcceptedVP pub bs purpose v ↔ OtherVP plainly pub bs purpose v := by
  have key : ∀ m t, Accepts E pub m t ↔ ∃ base sig, IsMultibase E base sig t ∧ plainly (E.edPubBytes pub) m sig := by
    intro m t
    constructor
    · rintro ⟨base, sig, hex, g1, g2, g3⟩
      rw [isHex_iff.mp g2, V pub m sig hd] at g3
      exact ⟨base, sig, g1, g3⟩
    · rintro ⟨base, sig, g1, g2⟩
      exact ⟨base, sig, _, g1, hexEncode_spec _, (V pub m sig hd).mpr g2⟩
  constructor
  · intro v
    rw [accepted_vc_iff L]
    unfold OtherVC
    constructor
    · rintro ⟨h0, p, h1, h2, h3, h4, h5, h6⟩
      obtain ⟨base, sig, g1, g2⟩ := (key _ _).mp h6
      exact ⟨h0, p, base, sig, h1, h2, h3, h4, h5, g1, g2⟩
    · rintro ⟨h0, p, base, sig, h1, h2, h3, h4, h5, g1, g2⟩
      exact ⟨h0, p, h1, h2, h3, h4, h5, (key _ _).mpr ⟨base, sig, g1, g2⟩⟩
  · intro v
    rw [accepted_vp_iff L]
    unfold OtherVP
    constructor
    · rintro ⟨h0, p, h1, h2, h3, h4, h5, h6⟩
      obtain ⟨base, sig, g1, g2⟩ := (key _ _).mp h6
      exact ⟨h0, p, base, sig, h1, h2, h3, h4, h5, g1, g2⟩
    · rintro ⟨h0, p, base, sig, h1, h2, h3, h4, h5, g1, g2⟩
      exact ⟨h0, p, h1, h2, h3, h4, h5, (key _ _).mpr ⟨base, sig, g1, g2⟩⟩

/-- C100: the strict verifier accepts less and the one with the factor eight more, on all keys, messages and signatures. -/
theorem C100_order (key m sig : Bytes) : (strictly key m sig → plainly key m sig) ∧ (plainly key m sig → byEight key m sig) := by
  refine ⟨fun h => h.1, fun h => ?_⟩
  obtain ⟨A, R, s, h1, h2, h3, h4⟩ := (Ed25519.verify_iff _ _ _).mp h
  exact (Ed25519.byEight_iff _ _ _).mpr ⟨A, R, s, h1, h2, h3, by rw [h4]⟩

/-- C100: where they differ: what is accepted with the factor only is a signature of the same second half whose first half is off by
exactly one of the eight, and not by the first. -/
theorem C100_gap (key m sig : Bytes) : (byEight key m sig ∧ ¬ plainly key m sig) ↔
    ∃ A R, key.length = 32 ∧ sig.length = 64 ∧ Ed25519.pointDecompress key = some A ∧ Ed25519.pointDecompress (sig.take 32) = some R ∧
      Blake3.leVal (sig.drop 32) < groupOrder ∧ ∃ small T, hexEncode small ∈ smallKeys.tail ∧
      Ed25519.pointDecompress small = some T ∧
      Ed25519.pointEqual (Ed25519.pointMul (Blake3.leVal (sig.drop 32)) Ed25519.base)
        (Ed25519.pointAdd (Ed25519.pointAdd R T) (Ed25519.pointMul (hashNumber (sig.take 32) key m) A)) = true := by
  constructor
  · rintro ⟨h, hn⟩
    obtain ⟨a, r, n, rfl, hlt, rfl, e⟩ := (Ed25519.byEight_iff _ _ _).mp h
    obtain ⟨A, R, h1, h2, hA, hR, hs, -⟩ := h
    refine ⟨A, R, h1, h2, hA, hR, hs, Ed25519.enc (n • Ed25519.B - (r + Ed25519.hashModQ (Ed25519.enc r ++ Ed25519.enc a ++ m) • a)), ?_⟩
    have ht : (Ed25519.enc r ++ Blake3.leBytes 32 n).take 32 = Ed25519.enc r := List.take_left' (Ed25519.enc_length r)
    have hd : (Ed25519.enc r ++ Blake3.leBytes 32 n).drop 32 = Blake3.leBytes 32 n := List.drop_left' (Ed25519.enc_length r)
    have hv : Blake3.leVal (Blake3.leBytes 32 n) = n := Ed25519.leVal_leBytes (lt_trans hlt (by decide +kernel))
    obtain ⟨T, hT, rT⟩ := Ed25519.pointDecompress_enc (n • Ed25519.B - (r + Ed25519.hashModQ (Ed25519.enc r ++ Ed25519.enc a ++ m) • a))
    refine ⟨T, (mem_tail _).mpr ⟨_, rfl, ?_, ?_⟩, hT, ?_⟩
    · rw [nsmul_sub, e, sub_self]
    · intro h0
      exact hn ((Ed25519.verify_iff _ _ _).mpr ⟨a, r, n, rfl, hlt, rfl, sub_eq_zero.mp h0⟩)
    · obtain ⟨a', ea, ra⟩ := Ed25519.pointDecompress_some hA
      cases Ed25519.enc_injective ea
      rw [ht] at hR
      obtain ⟨r', er, rr⟩ := Ed25519.pointDecompress_some hR
      cases Ed25519.enc_injective er
      rw [ht, hd, hv, Ed25519.hashNumber_eq]
      refine (Ed25519.pointEqual_iff (Ed25519.rep_mul (lt_trans hlt Ed25519.q_lt) Ed25519.rep_base)
        (Ed25519.rep_add (Ed25519.rep_add rr rT) (Ed25519.rep_mul (lt_trans (Ed25519.hashModQ_lt _) Ed25519.q_lt) ra))).mpr ?_
      abel
  · rintro ⟨A, R, h1, h2, hA, hR, hs, small, T, hk, hT, h⟩
    obtain ⟨t, rfl, h8, h0⟩ := (mem_tail _).mp hk
    obtain ⟨a, rfl, ra⟩ := Ed25519.pointDecompress_some hA
    obtain ⟨r, er, rr⟩ := Ed25519.pointDecompress_some hR
    obtain ⟨t', et, rt⟩ := Ed25519.pointDecompress_some hT
    cases Ed25519.enc_injective et
    have hlt : Blake3.leVal (sig.drop 32) < Ed25519.q := hs
    have e := (Ed25519.pointEqual_iff (Ed25519.rep_mul (lt_trans hlt Ed25519.q_lt) Ed25519.rep_base)
        (Ed25519.rep_add (Ed25519.rep_add rr rt) (Ed25519.rep_mul (lt_trans (Ed25519.hashModQ_lt _) Ed25519.q_lt) ra))).mp h
    have hlen : (sig.drop 32).length = 32 := by rw [List.length_drop, h2]
    have hsig : sig = Ed25519.enc r ++ Blake3.leBytes 32 (Blake3.leVal (sig.drop 32)) := by
      have hb := Ed25519.leBytes_leVal (sig.drop 32)
      rw [hlen] at hb
      rw [← er, hb, List.take_append_drop]
    constructor
    · refine (Ed25519.byEight_iff _ _ _).mpr ⟨a, r, _, rfl, hlt, hsig, ?_⟩
      rw [e, er, nsmul_add, nsmul_add, h8, add_zero, ← nsmul_add]
    · intro hp
      obtain ⟨r', e1, -, e2⟩ := Ed25519.verify_point hp
      rw [er] at e1
      cases Ed25519.enc_injective e1
      have e3 := add_right_cancel (e.symm.trans e2)
      rw [add_eq_left] at e3
      exact h0 e3

/-- C100: under a key other than the eight, the verifier with the factor also accepts one signature for documents with the same
hash number only, and one second half for each first half and document. -/
theorem C100_binds (key : Bytes) (hk : hexEncode key ∉ smallKeys) (m m' sig sig' : Bytes) (h : byEight key m sig) :
    (byEight key m' sig → hashNumber (sig.take 32) key m = hashNumber (sig.take 32) key m') ∧
    (sig.take 32 = sig'.take 32 → byEight key m sig' → sig = sig') := by
  obtain ⟨A, R, s, rfl, hs, rfl, e⟩ := (Ed25519.byEight_iff _ _ _).mp h
  have ht : ∀ s, (Ed25519.enc R ++ Blake3.leBytes 32 s).take 32 = Ed25519.enc R := fun s => List.take_left' (Ed25519.enc_length R)
  rw [ht]
  constructor
  · intro h'
    obtain ⟨A', R', s', eA, hs', e0, e'⟩ := (Ed25519.byEight_iff _ _ _).mp h'
    cases Ed25519.enc_injective eA
    obtain ⟨eR, es⟩ := List.append_inj e0 (by rw [Ed25519.enc_length, Ed25519.enc_length])
    cases Ed25519.enc_injective eR
    have hss : s = s' := by
      have := congrArg Blake3.leVal es
      rwa [Ed25519.leVal_leBytes (lt_trans hs (by decide +kernel)), Ed25519.leVal_leBytes (lt_trans hs' (by decide +kernel))] at this
    subst hss
    rw [mem_smallKeys] at hk
    have h2 := e.symm.trans e'
    rw [nsmul_add, nsmul_add] at h2
    have h3 := add_left_cancel h2
    rw [← mul_nsmul', ← mul_nsmul'] at h3
    have h4 := (nsmul_eq_nsmul_iff_modEq.mp h3).of_dvd (Ed25519.q_dvd_order hk)
    have h5 := Nat.ModEq.cancel_left_of_coprime (c := 8) Ed25519.coprime_q_eight h4
    unfold Nat.ModEq at h5
    rwa [Nat.mod_eq_of_lt (Ed25519.hashModQ_lt _), Nat.mod_eq_of_lt (Ed25519.hashModQ_lt _)] at h5
  · intro hh h'
    obtain ⟨A', R', s', eA, hs', rfl, e'⟩ := (Ed25519.byEight_iff _ _ _).mp h'
    cases Ed25519.enc_injective eA
    rw [List.take_left' (Ed25519.enc_length R')] at hh
    cases Ed25519.enc_injective hh
    rw [Ed25519.eight_B hs hs' (e.trans e'.symm)]

/-- C100: for the public key of a key pair, the strict verifier refuses of what the library accepts exactly the signatures whose first
half is that of the number zero. -/
theorem C100_strict {E : Env} {seed : E.EdKP → Bytes} (K : Ed25519Keys E seed) (kp : E.EdKP) (m sig : Bytes) :
    (plainly (E.edPubBytes (E.edPub kp)) m sig ∧ ¬ strictly (E.edPubBytes (E.edPub kp)) m sig) ↔
      plainly (E.edPubBytes (E.edPub kp)) m sig ∧ sig.take 32 = 1 :: List.replicate 31 0 := by
  rw [K.pub]
  constructor
  · rintro ⟨h, hn⟩
    refine ⟨h, small_head h ?_⟩
    by_contra hs
    exact hn ⟨h, by rw [← K.pub]; exact C93_own K kp, hs⟩
  · rintro ⟨h, hs⟩
    refine ⟨h, fun hn => hn.2.2 ?_⟩
    rw [hs]
    exact head_zero

/-- C100: what a key pair signs, as a credential, a presentation or bytes, is accepted by all three, except that the strict
verifier refuses a signature whose hash for the first half is zero modulo the group order. -/
theorem C100_signed {E : Env} {seed : E.EdKP → Bytes} (K : Ed25519Keys E seed) (L : E.JcsLaws) (kp : E.EdKP) (m sig : Bytes)
    (h : Issued kp m sig) : plainly (E.edPubBytes (E.edPub kp)) m sig ∧ byEight (E.edPubBytes (E.edPub kp)) m sig ∧
      (strictly (E.edPubBytes (E.edPub kp)) m sig ↔
        Blake3.leVal (Sha2.sha512 (secretPrefix (seed kp) ++ m)) % groupOrder ≠ 0) := by
  have hown := C93_own K kp
  rw [issued_sign K L h]
  rw [K.pub] at hown ⊢
  have hv := Ed25519.verify_sign (seed kp) m
  refine ⟨hv, (C100_order _ _ _).2 hv, ?_⟩
  have hr := Ed25519.hashModQ_lt (secretPrefix (seed kp) ++ m)
  have ht : (Ed25519.sign (seed kp) m).take 32 = Ed25519.enc (Ed25519.hashModQ (secretPrefix (seed kp) ++ m) • Ed25519.B) := by
    unfold Ed25519.sign
    dsimp only
    rw [Ed25519.pointCompress_eq (Ed25519.rep_mul (lt_trans hr Ed25519.q_lt) Ed25519.rep_base)]
    exact List.take_left' (Ed25519.enc_length _)
  have hiff : hexEncode ((Ed25519.sign (seed kp) m).take 32) ∈ smallKeys ↔ Ed25519.hashModQ (secretPrefix (seed kp) ++ m) = 0 := by
    rw [ht, mem_smallKeys]
    constructor
    · intro h8
      refine Ed25519.eight_B hr Ed25519.q_prime.pos ?_
      rw [h8, zero_nsmul, nsmul_zero]
    · intro h0
      rw [h0, zero_nsmul, nsmul_zero]
  constructor
  · intro hs h0
    exact hs.2.2 (hiff.mpr h0)
  · intro h0
    exact ⟨hv, hown, fun hs => h0 (hiff.mp hs)⟩

/-- C100: and whoever has the secret scalar makes credentials on which they disagree: for every credential, every number and each of
the eight keys but the first, a proof value that the verifier with the factor accepts and the library does not. -/
theorem C100_split_vc {E : Env} {seed : E.EdKP → Bytes} (K : Ed25519Keys E seed) (L : E.JcsLaws) (N : E.NumLaws) (kp : E.EdKP)
    (x r : Nat) (hx : x % groupOrder = secretScalar (seed kp) % groupOrder) (small : Bytes) (hk : hexEncode small ∈ smallKeys.tail)
    (v : VC E) (opts : Proof) (hv : VCComplete v)
    (ho : GoodOptions E opts) (hp : opts.proofPurpose ≠ .unknown) (hn : Survives E v.credentialSubject.1)
    (hd : v.credentialSubject.1.depth ≤ 126) : ∃ sig text t,
      shiftedFrom small x r (E.edPubBytes (E.edPub kp)) (message E (optionBytes E (unvalued opts)) (vcBytes (unsignedVC v))) = some sig ∧
      IsMultibase58 sig text ∧
      ({ v with proof := some { opts with proofValue := text } } : VC E).toJson = .ok t ∧
      OtherVC byEight (E.edPub kp) (utf8 t.text) opts.proofPurpose { v with proof := some { opts with proofValue := text } } ∧
      ¬ ∃ w : VC E, AcceptedVC (E.edPub kp) (utf8 t.text) opts.proofPurpose w := by
  obtain ⟨sig, e, h1, h2⟩ := shifted_opinions (secret := seed kp) hk hx r
    (message E (optionBytes E (unvalued opts)) (vcBytes (unsignedVC v)))
  obtain ⟨t, j1, j2⟩ := C26_json_roundtrip N ({ v with proof := some { opts with proofValue := multibaseEncode58 sig } } : VC E) hv hn hd
  rw [JSONValue.toBytes, ← utf8_eq] at j2
  refine ⟨sig, _, t, by rw [K.pub]; exact e, multibaseEncode58_spec sig, j1, ⟨j2, _, _, sig, rfl, ⟨ho.1, ho.2, ho.3⟩, rfl, hp, hv,
    .base58 (multibaseEncode58_spec sig), by rw [K.pub]; exact h1⟩, ?_⟩
  rintro ⟨w, hw⟩
  obtain ⟨w1, q, w2, -, -, -, -, _, sig', hex, w3, w4, w5⟩ := (accepted_vc_iff L _ _ _ _).mp hw
  rw [j2] at w1
  cases w1
  cases w2
  cases isMultibase_bytes (.base58 (multibaseEncode58_spec sig)) w3
  rw [isHex_iff.mp w4, K.verify] at w5
  exact h2 w5

/-- C100: and presentations. -/
theorem C100_split_vp {E : Env} {seed : E.EdKP → Bytes} (K : Ed25519Keys E seed) (L : E.JcsLaws) (N : E.NumLaws) (kp : E.EdKP)
    (x r : Nat) (hx : x % groupOrder = secretScalar (seed kp) % groupOrder) (small : Bytes) (hk : hexEncode small ∈ smallKeys.tail)
    (v : VP E) (opts : Proof) (hv : VPComplete v)
    (ho : GoodOptions E opts) (hp : opts.proofPurpose ≠ .unknown)
    (hn : ∀ c ∈ v.verifiableCredential, Survives E c.credentialSubject.1)
    (hd : ∀ c ∈ v.verifiableCredential, c.credentialSubject.1.depth ≤ 124) : ∃ sig text t,
      shiftedFrom small x r (E.edPubBytes (E.edPub kp)) (message E (optionBytes E (unvalued opts)) (vpBytes (unsignedVP v))) = some sig ∧
      IsMultibase58 sig text ∧
      ({ v with proof := some { opts with proofValue := text } } : VP E).toJson = .ok t ∧
      OtherVP byEight (E.edPub kp) (utf8 t.text) opts.proofPurpose { v with proof := some { opts with proofValue := text } } ∧
      ¬ ∃ w : VP E, AcceptedVP (E.edPub kp) (utf8 t.text) opts.proofPurpose w := by
  obtain ⟨sig, e, h1, h2⟩ := shifted_opinions (secret := seed kp) hk hx r
    (message E (optionBytes E (unvalued opts)) (vpBytes (unsignedVP v)))
  obtain ⟨t, j1, j2⟩ := C27_json_roundtrip N ({ v with proof := some { opts with proofValue := multibaseEncode58 sig } } : VP E) hv hn hd
  rw [JSONValue.toBytes, ← utf8_eq] at j2
  refine ⟨sig, _, t, by rw [K.pub]; exact e, multibaseEncode58_spec sig, j1, ⟨j2, _, _, sig, rfl, ⟨ho.1, ho.2, ho.3⟩, rfl, hp, hv,
    .base58 (multibaseEncode58_spec sig), by rw [K.pub]; exact h1⟩, ?_⟩
  rintro ⟨w, hw⟩
  obtain ⟨w1, q, w2, -, -, -, -, _, sig', hex, w3, w4, w5⟩ := (accepted_vp_iff L _ _ _ _).mp hw
  rw [j2] at w1
  cases w1
  cases w2
  cases isMultibase_bytes (.base58 (multibaseEncode58_spec sig)) w3
  rw [isHex_iff.mp w4, K.verify] at w5
  exact h2 w5

/-! ### Values -/

theorem two_tail : hexEncode twoKey ∈ smallKeys.tail := by decide +kernel

/-- `C100_library`: a credential that is accepted under the key of a key pair, by the library and so by the first of the three. -/
example : ∃ bs v, AcceptedVC (signing.edPub firstPair) bs .assertionMethod v ∧
    OtherVC plainly (signing.edPub firstPair) bs .assertionMethod v := by
  have hv := accepts_madeFrom signing_keys firstPair (secretScalar firstPair) 5 (Eq.refl _) signingMessage
  have hd : Ed25519.pointDecompress (signing.edPubBytes (signing.edPub firstPair)) ≠ none := (signing.edPub firstPair).2
  generalize multibaseEncode58 _ = text at hv
  generalize signing.edPub firstPair = pub at hv hd ⊢
  obtain ⟨t, -, h⟩ := signing_accepted _ _ hv
  exact ⟨_, _, h, ((C100_library signing_rfc signing_jcsLaws pub hd _ _).1 _).mp h⟩

/-- `C100_gap`, `C100_order`, `C100_binds`: with the key of order two added to the first half, the opinions differ, under a key that is
not among the eight. -/
example : ∃ sig, byEight (Ed25519.publicKey firstPair) signingMessage sig ∧ ¬ plainly (Ed25519.publicKey firstPair) signingMessage sig ∧
    hexEncode (Ed25519.publicKey firstPair) ∉ smallKeys := by
  obtain ⟨sig, -, h1, h2⟩ := shifted_opinions (secret := firstPair) two_tail (x := secretScalar firstPair) rfl 5 signingMessage
  refine ⟨sig, h1, h2, ?_⟩
  have := C93_own signing_keys firstPair
  rwa [signing_keys.pub] at this

/-- `C100_strict`: the signature with the number zero behind the first half. -/
example : ∃ sig, plainly (signing.edPubBytes (signing.edPub firstPair)) signingMessage sig ∧
    sig.take 32 = 1 :: List.replicate 31 0 := by
  rw [signing_keys.pub]
  refine ⟨_, Ed25519.verify_madeFrom firstPair signingMessage (secretScalar firstPair) 0 rfl, ?_⟩
  have h0 : Ed25519.pointCompress (Ed25519.pointMul (0 % groupOrder) Ed25519.base) = 1 :: List.replicate 31 0 := by decide +kernel
  unfold madeFrom
  rw [h0]
  rfl

theorem first_nonce : Blake3.leVal (Sha2.sha512 (secretPrefix firstPair ++ signingMessage)) % groupOrder ≠ 0 := by
  decide +kernel

/-- `C100_signed`: a signed credential, which the strict verifier accepts too. -/
example : ∃ sig, Issued firstPair signingMessage sig ∧ strictly (signing.edPubBytes (signing.edPub firstPair)) signingMessage sig := by
  have h := issued_of firstPair signingVC signingVC_complete
  rw [signing_message] at h
  generalize signing.edSign firstPair signingMessage = a at h
  exact ⟨a, h, (C100_signed signing_keys signing_jcsLaws firstPair _ _ h).2.2.mpr first_nonce⟩

/-- `C100_split_vc`: the sample credential with the key of order two. -/
example : ∃ text t, ({ signingVC with proof := some { toyProof with proofValue := text } } : VC signing).toJson = .ok t ∧
    OtherVC byEight (signing.edPub firstPair) (utf8 t.text) .assertionMethod
      { signingVC with proof := some { toyProof with proofValue := text } } ∧
    ¬ ∃ w : VC signing, AcceptedVC (signing.edPub firstPair) (utf8 t.text) .assertionMethod w := by
  obtain ⟨_, text, t, -, -, h1, h2, h3⟩ := C100_split_vc signing_keys signing_jcsLaws signing_numLaws firstPair (secretScalar firstPair) 5 rfl
    twoKey two_tail signingVC toyProof signingVC_complete signing_options (by decide) (signing_survives _) signing_depth
  exact ⟨text, t, h1, h2, h3⟩

/-- A presentation of the sample credential. -/
def signingVP : VP signing := { contexts := ["c".toList], types := ["t".toList], verifiableCredential := [signingVC], proof := none, holder := some "h".toList }

/-- `C100_split_vp`: it with the key of order two. -/
example : ∃ text t, ({ signingVP with proof := some { toyProof with proofValue := text } } : VP signing).toJson = .ok t ∧
    OtherVP byEight (signing.edPub firstPair) (utf8 t.text) .assertionMethod
      { signingVP with proof := some { toyProof with proofValue := text } } ∧
    ¬ ∃ w : VP signing, AcceptedVP (signing.edPub firstPair) (utf8 t.text) .assertionMethod w := by
  obtain ⟨_, text, t, -, -, h1, h2, h3⟩ := C100_split_vp signing_keys signing_jcsLaws signing_numLaws firstPair (secretScalar firstPair) 5 rfl
    twoKey two_tail signingVP toyProof ⟨by simp [signingVP], by simp [signingVP], by simp [signingVP]⟩ signing_options (by decide)
    (fun c _ => signing_survives _) (by simp [signingVP, signingVC, Json.depth])
  exact ⟨text, t, h1, h2, h3⟩

end Verif.Props
