import Verif.Props.Secrets

/-
C99: one proof value under several public keys. `verify_proof` takes the key from its caller
(core/src/verifiable/proof/integrity.rs, core/src/verifiable/proof/eddsa.rs:65-112), so here is what it means that a text verifies
under a key other than the signer's.
-/

namespace Verif.Ed25519
open Spec
open Blake3 (leVal)
open Edwards (Point)

/-- What a number does not distinguish: as many points as it has divisors in common with eight. -/
theorem few_points (n : Nat) (hn : ¬ q ∣ n) (Q : Point D) : ∃ S : Finset Bytes, S.card ≤ Nat.gcd n 8 ∧
    ∀ A : Point D, n • A = Q → enc A ∈ S := by
  classical
  by_cases h0 : ∃ A0 : Point D, n • A0 = Q
  · obtain ⟨A0, e0⟩ := h0
    refine ⟨(Finset.range (Nat.gcd n 8)).image fun j => enc (A0 + (8 / Nat.gcd n 8 * j) • eighth),
      Finset.card_image_le.trans (Finset.card_range _).le, fun A e => ?_⟩
    have hz : n • (A - A0) = 0 := by rw [nsmul_sub, e, e0, sub_self]
    have hd := addOrderOf_dvd_of_nsmul_eq_zero hz
    have hq : ¬ q ∣ addOrderOf (A - A0) := fun h => hn (h.trans hd)
    have hc : Nat.Coprime (addOrderOf (A - A0)) q := ((Nat.Prime.coprime_iff_not_dvd q_prime).mpr hq).symm
    have h8 : addOrderOf (A - A0) ∣ 8 := hc.dvd_of_dvd_mul_left (order_dvd _)
    obtain ⟨k, hk, ek⟩ := (small_iff _).mp (addOrderOf_dvd_iff_nsmul_eq_zero.mp h8)
    have hg := addOrderOf_dvd_iff_nsmul_eq_zero.mp (Nat.dvd_gcd hd h8)
    obtain ⟨d, hd8⟩ := Nat.gcd_dvd_right n 8
    have hgpos : 0 < Nat.gcd n 8 := Nat.gcd_pos_of_pos_right n (by decide)
    rw [ek, ← mul_nsmul', ← addOrderOf_dvd_iff_nsmul_eq_zero, order_eighth] at hg
    generalize Nat.gcd n 8 = g at *
    have hdk : d ∣ k := by
      have : g * d ∣ g * k := hd8 ▸ hg
      exact Nat.dvd_of_mul_dvd_mul_left hgpos this
    obtain ⟨j, rfl⟩ := hdk
    have hdiv : 8 / g = d := by rw [hd8]; exact Nat.mul_div_cancel_left d hgpos
    have hdpos : 0 < d := Nat.pos_of_ne_zero (by rintro rfl; omega)
    refine Finset.mem_image.mpr ⟨j, Finset.mem_range.mpr ?_, ?_⟩
    · rw [hd8, Nat.mul_comm g d] at hk
      exact Nat.lt_of_mul_lt_mul_left hk
    · rw [hdiv, ← ek, add_sub_cancel]
  · exact ⟨∅, by simp, fun A e => absurd ⟨A, e⟩ h0⟩

/-- One signature under two keys. -/
theorem verify_both {A A' : Point D} {m m' sig : Bytes} (h : verify (enc A) m sig = true) (h' : verify (enc A') m' sig = true) :
    hashModQ (sig.take 32 ++ enc A ++ m) • A = hashModQ (sig.take 32 ++ enc A' ++ m') • A' := by
  obtain ⟨R, e1, -, e2⟩ := verify_point h
  obtain ⟨R', e1', -, e2'⟩ := verify_point h'
  cases enc_injective (e1.symm.trans e1')
  exact add_left_cancel (e2.symm.trans e2')

theorem verify_moved {A A' : Point D} {m m' sig : Bytes} (h : verify (enc A) m sig = true)
    (e : hashModQ (sig.take 32 ++ enc A ++ m) • A = hashModQ (sig.take 32 ++ enc A' ++ m') • A') : verify (enc A') m' sig = true := by
  obtain ⟨A1, R, s, eA, hs, e0, e1⟩ := (verify_iff _ _ _).mp h
  cases enc_injective eA
  have ht : sig.take 32 = enc R := by rw [e0]; exact List.take_left' (enc_length R)
  rw [verify_iff]
  rw [ht] at e
  exact ⟨A', R, s, rfl, hs, e0, by rw [e1, e]⟩

/-- The number of the second key, from that of the first. -/
theorem other_solution {A : Point D} {a k k' x : Nat} (hk' : k' < q) (h0 : k' ≠ 0) (e : k • (a • B) = k' • A)
    (hx : k' * x % q = k * a % q) : 8 • A = 8 • (x • B) := by
  have h1 : (k' * x) • B = (k * a) • B := (smul_B_iff _ _).mpr hx
  have h2 : k' • (A - x • B) = 0 := by
    rw [nsmul_sub, ← e, ← mul_nsmul', ← mul_nsmul', h1, sub_self]
  have hc : Nat.Coprime (addOrderOf (A - x • B)) q := by
    refine ((Nat.Prime.coprime_iff_not_dvd q_prime).mpr fun h => ?_).symm
    have := Nat.le_of_dvd (Nat.pos_of_ne_zero h0) (h.trans (addOrderOf_dvd_of_nsmul_eq_zero h2))
    omega
  have h3 := addOrderOf_dvd_iff_nsmul_eq_zero.mp (hc.dvd_of_dvd_mul_left (order_dvd (A - x • B)))
  rw [nsmul_sub] at h3
  exact sub_eq_zero.mp h3

theorem divide_unique {k' c : Nat} (hk' : k' < q) (h0 : k' ≠ 0) : ∃! x, x < q ∧ k' * x % q = c % q := by
  obtain ⟨x, ⟨h1, h2⟩, h3⟩ := linear_unique (k := k') (k' := 0) (s' := 0) (s := c) hk' q_prime.pos h0
  refine ⟨x, ⟨h1, by simpa using h2⟩, ?_⟩
  rintro y ⟨y1, y2⟩
  exact h3 y ⟨y1, by simpa using y2⟩

end Verif.Ed25519

namespace Verif.Props
open Verif Spec
open Verif.Ed25519 (secretScalar)

theorem point_of {E : Env} {pub : E.EdPub} (hd : Ed25519.pointDecompress (E.edPubBytes pub) ≠ none) :
    ∃ A, E.edPubBytes pub = Ed25519.enc A := by
  cases hQ : Ed25519.pointDecompress (E.edPubBytes pub) with
  | none => exact absurd hQ hd
  | some Q =>
    obtain ⟨A, eA, -⟩ := Ed25519.pointDecompress_some hQ
    exact ⟨A, eA⟩

/-- C99: a signature and a hash number determine the public key up to the divisors the number has in common with eight: one key
if it is odd, never more than eight, the same for all documents. -/
theorem C99_few (sig : Bytes) (n : Nat) (hn : n % groupOrder ≠ 0) : ∃ S : Finset Bytes, S.card ≤ Nat.gcd n 8 ∧
    ∀ (E : Env), Rfc8032Sound E → E.JcsLaws → ∀ (pub : E.EdPub) (m : Bytes),
      Ed25519.pointDecompress (E.edPubBytes pub) ≠ none → Shown pub m sig →
      hashNumber (sig.take 32) (E.edPubBytes pub) m = n → E.edPubBytes pub ∈ S := by
  have hq : ¬ Ed25519.q ∣ n := fun h => hn (Nat.mod_eq_zero_of_dvd h)
  by_cases hR : ∃ R, sig.take 32 = Ed25519.enc R
  · obtain ⟨R, hR⟩ := hR
    obtain ⟨S, hS, hm⟩ := Ed25519.few_points n hq (Blake3.leVal (sig.drop 32) • Ed25519.B - R)
    refine ⟨S, hS, fun E so L pub m hd h hh => ?_⟩
    have v := shown_sound so L hd h
    obtain ⟨A, eA⟩ := point_of hd
    rw [eA] at v hh ⊢
    obtain ⟨R', e1, -, e2⟩ := Ed25519.verify_point v
    cases Ed25519.enc_injective (hR.symm.trans e1)
    refine hm A ?_
    rw [e2, ← hh, add_sub_cancel_left]
    rfl
  · refine ⟨∅, by simp, fun E so L pub m hd h hh => ?_⟩
    have v := shown_sound so L hd h
    obtain ⟨A, eA⟩ := point_of hd
    rw [eA] at v
    obtain ⟨R', e1, -⟩ := Ed25519.verify_point v
    exact absurd ⟨R', e1⟩ hR

/-- C99: what verifies under one public key verifies under another, for this document or any other, exactly when the hash numbers
take both keys to the same point of the curve. -/
theorem C99_iff {E : Env} (V : Rfc8032Verify E) (L : E.JcsLaws) (pub pub' : E.EdPub) (P P' : Ed25519.Ext)
    (hP : Ed25519.pointDecompress (E.edPubBytes pub) = some P) (hP' : Ed25519.pointDecompress (E.edPubBytes pub') = some P')
    (m m' sig : Bytes) (h : Shown pub m sig) (base : MBase) (t : Str) (ht : IsMultibase E base sig t) :
    Accepts E pub' m' t ↔ Ed25519.pointEqual (Ed25519.pointMul (hashNumber (sig.take 32) (E.edPubBytes pub) m) P)
      (Ed25519.pointMul (hashNumber (sig.take 32) (E.edPubBytes pub') m') P') = true := by
  have hne : Ed25519.pointDecompress (E.edPubBytes pub) ≠ none := by rw [hP]; exact fun h => nomatch h
  have hne' : Ed25519.pointDecompress (E.edPubBytes pub') ≠ none := by rw [hP']; exact fun h => nomatch h
  have v := shown_sound (fun p m sig h => (V p m sig h).mp) L hne h
  have hV := V pub' m' sig hne'
  have hacc : Accepts E pub' m' t ↔ Ed25519.verify (E.edPubBytes pub') m' sig = true := by
    rw [← hV]
    constructor
    · rintro ⟨_, sig1, hex, g1, g2, g3⟩
      cases isMultibase_bytes ht g1
      rwa [isHex_iff.mp g2] at g3
    · intro g
      exact ⟨_, _, _, ht, hexEncode_spec _, g⟩
  rw [hacc]
  obtain ⟨A, eA, rA⟩ := Ed25519.pointDecompress_some hP
  obtain ⟨A', eA', rA'⟩ := Ed25519.pointDecompress_some hP'
  rw [eA] at v ⊢
  rw [eA']
  have h1 := Ed25519.hashModQ_lt (sig.take 32 ++ Ed25519.enc A ++ m)
  have h2 := Ed25519.hashModQ_lt (sig.take 32 ++ Ed25519.enc A' ++ m')
  rw [Ed25519.hashNumber_eq, Ed25519.hashNumber_eq,
    Ed25519.pointEqual_iff (Ed25519.rep_mul (lt_trans h1 Ed25519.q_lt) rA) (Ed25519.rep_mul (lt_trans h2 Ed25519.q_lt) rA')]
  exact ⟨fun v' => Ed25519.verify_both v v', fun e => Ed25519.verify_moved v e⟩

/-- C99: a text that verifies under any public key but the eight of C93, with a hash number other than zero, verifies under none of
the eight. -/
theorem C99_small {E : Env} (so : Rfc8032Sound E) (L : E.JcsLaws) (pub pub' : E.EdPub) (m m' sig : Bytes)
    (hd : Ed25519.pointDecompress (E.edPubBytes pub) ≠ none) (hk : hexEncode (E.edPubBytes pub) ∉ smallKeys)
    (hn : hashNumber (sig.take 32) (E.edPubBytes pub) m ≠ 0) (h : Shown pub m sig)
    (hk' : hexEncode (E.edPubBytes pub') ∈ smallKeys) : ¬ Shown pub' m' sig := by
  intro h'
  obtain ⟨A', eA', h8⟩ := small_point hk'
  have hd' : Ed25519.pointDecompress (E.edPubBytes pub') ≠ none := by
    obtain ⟨Q, hQ, -⟩ := Ed25519.pointDecompress_enc A'
    rw [eA', hQ]
    exact fun h => nomatch h
  have v := shown_sound so L hd h
  have v' := shown_sound so L hd' h'
  obtain ⟨A, eA⟩ := point_of hd
  rw [eA] at v hk hn
  rw [eA'] at v'
  rw [mem_smallKeys] at hk
  have e := Ed25519.verify_both v v'
  have hz : (8 * Ed25519.hashModQ (sig.take 32 ++ Ed25519.enc A ++ m)) • A = 0 := by
    rw [mul_nsmul', e, ← mul_nsmul', Nat.mul_comm, mul_nsmul', h8, nsmul_zero]
  have hdvd := (Ed25519.q_dvd_order hk).trans (addOrderOf_dvd_of_nsmul_eq_zero hz)
  have hdvd2 := (Ed25519.coprime_q_eight.dvd_of_dvd_mul_left hdvd)
  have hlt := Ed25519.hashModQ_lt (sig.take 32 ++ Ed25519.enc A ++ m)
  exact hn (Nat.eq_zero_of_dvd_of_lt hdvd2 hlt)

/-- C99: a text that verifies under the public key of a key pair and under another public key, whoever made that: the holder of the
key pair computes from its scalar one number that makes proof values for the other key, accepted for one hash in eight, unless the
other hash number is zero. So a proof value of one account is accepted under the key of another only if the signer might as well
sign for it. -/
theorem C99_owner {E : Env} {seed : E.EdKP → Bytes} (K : Ed25519Keys E seed) (V : Rfc8032Verify E) (L : E.JcsLaws) (kp : E.EdKP)
    (pub' : E.EdPub) (m m' sig : Bytes) (hd' : Ed25519.pointDecompress (E.edPubBytes pub') ≠ none)
    (h : Shown (E.edPub kp) m sig) (h' : Shown pub' m' sig)
    (hn : hashNumber (sig.take 32) (E.edPubBytes pub') m' ≠ 0) :
    (∃! x, x < groupOrder ∧ hashNumber (sig.take 32) (E.edPubBytes pub') m' * x % groupOrder =
      hashNumber (sig.take 32) (E.edPubBytes (E.edPub kp)) m * secretScalar (seed kp) % groupOrder) ∧
    ∀ x, hashNumber (sig.take 32) (E.edPubBytes pub') m' * x % groupOrder =
        hashNumber (sig.take 32) (E.edPubBytes (E.edPub kp)) m * secretScalar (seed kp) % groupOrder →
      ∀ r any text, hashNumber (Ed25519.pointCompress (Ed25519.pointMul (r % groupOrder) Ed25519.base)) (E.edPubBytes pub') any % 8 = 0 →
        IsMultibase58 (madeFrom x r (E.edPubBytes pub') any) text → Accepts E pub' any text := by
  have so : Rfc8032Sound E := fun p m sig h => (V p m sig h).mp
  have v := shown_verify K L h
  have v' := shown_sound so L hd' h'
  have hV := V pub'
  obtain ⟨A, eA⟩ := point_of hd'
  rw [K.pub]
  rw [eA] at v' hn hd' hV ⊢
  rw [Ed25519.publicKey_eq] at v ⊢
  have e := Ed25519.verify_both v v'
  have hlt := Ed25519.hashModQ_lt (sig.take 32 ++ Ed25519.enc A ++ m')
  refine ⟨Ed25519.divide_unique hlt hn, ?_⟩
  intro x hx r any text h8 ht
  refine ⟨_, _, _, .base58 ht, hexEncode_spec _, (hV _ _ hd').mpr ?_⟩
  exact Ed25519.verify_solution (Ed25519.other_solution hlt hn e hx) r any h8

/-! ### Values -/

theorem first_number : hashNumber fifthHead firstKey signingMessage % groupOrder ≠ 0 ∧ hashNumber fifthHead firstKey signingMessage ≠ 0 ∧
    Nat.gcd (hashNumber fifthHead firstKey signingMessage) 8 = 1 := by
  decide +kernel

theorem first_reads : Ed25519.pointDecompress (signing.edPubBytes (signing.edPub firstPair)) ≠ none := (signing.edPub firstPair).2

/-- `C99_few`: a signature that is shown, and its hash number, which is odd: no other key will ever go with the two. -/
example : ∃ a, Shown (signing.edPub firstPair) signingMessage a ∧
    hashNumber (a.take 32) (signing.edPubBytes (signing.edPub firstPair)) signingMessage % groupOrder ≠ 0 ∧
    Nat.gcd (hashNumber (a.take 32) (signing.edPubBytes (signing.edPub firstPair)) signingMessage) 8 = 1 ∧
    Ed25519.pointDecompress (signing.edPubBytes (signing.edPub firstPair)) ≠ none := by
  have h1 := first_shown
  have e1 := fifth_head' firstPair signingVC
  generalize fifth firstPair signingVC = a at h1 e1
  refine ⟨a, h1, ?_, ?_, first_reads⟩
  · rw [e1, firstKey_eq]
    exact first_number.1
  · rw [e1, firstKey_eq]
    exact first_number.2.2

/-- `C99_owner`: its hypotheses for the key of the key pair itself, where the number is the secret scalar. (For the key of anybody
else nobody knows a case: it would be a second document and key with a chosen hash.) -/
example : ∃ a, Shown (signing.edPub firstPair) signingMessage a ∧
    hashNumber (a.take 32) (signing.edPubBytes (signing.edPub firstPair)) signingMessage ≠ 0 ∧
    Ed25519.pointDecompress (signing.edPubBytes (signing.edPub firstPair)) ≠ none := by
  have h1 := first_shown
  have e1 := fifth_head' firstPair signingVC
  generalize fifth firstPair signingVC = a at h1 e1
  refine ⟨a, h1, ?_, first_reads⟩
  rw [e1, firstKey_eq]
  exact first_number.2.1

/-- `C99_small`: so that signature is accepted under none of the eight, on no message. -/
example (pub : signing.EdPub) (h : hexEncode (signing.edPubBytes pub) ∈ smallKeys) : ∃ a, Shown (signing.edPub firstPair) signingMessage a ∧
    ∀ m, ¬ Shown pub m a := by
  have h1 := first_shown
  have e1 := fifth_head' firstPair signingVC
  generalize fifth firstPair signingVC = a at h1 e1
  refine ⟨a, h1, fun m => C99_small signing_sound signing_jcsLaws _ pub _ m a first_reads (C93_own signing_keys _) ?_ h1 h⟩
  rw [e1, firstKey_eq]
  exact first_number.2.1

/-- The signature made of the number one. -/
def oneSignature : Bytes := Ed25519.pointCompress (Ed25519.pointMul 1 Ed25519.base) ++ Blake3.leBytes 32 1

theorem one_verifies : Ed25519.verify twoKey signingMessage oneSignature = true := by decide +kernel

theorem one_shown (pub : signing.EdPub) (h : signing.edPubBytes pub = twoKey) : Shown pub signingMessage oneSignature := by
  have hv : Accepts signing pub signingMessage (multibaseEncode58 oneSignature) :=
    ⟨_, _, _, .base58 (multibaseEncode58_spec _), hexEncode_spec _, (signing_rfc pub _ _ pub.2).mpr (h ▸ one_verifies)⟩
  obtain ⟨text, -, h2⟩ := signing_accepted pub _ hv
  have := Shown.vc h2 rfl (.base58 (multibaseEncode58_spec oneSignature))
  exact signing_message ▸ this

/-- The two points that the hash numbers give, compared. -/
def comparedPoints (head key m key' m' : Bytes) : Option Bool :=
  (Ed25519.pointDecompress key).bind fun P => (Ed25519.pointDecompress key').map fun P' =>
    Ed25519.pointEqual (Ed25519.pointMul (hashNumber head key m) P) (Ed25519.pointMul (hashNumber head key' m') P')

theorem compared_some {head key m key' m' : Bytes} {b : Bool} (h : comparedPoints head key m key' m' = some b) :
    ∃ P P', Ed25519.pointDecompress key = some P ∧ Ed25519.pointDecompress key' = some P' ∧
      Ed25519.pointEqual (Ed25519.pointMul (hashNumber head key m) P) (Ed25519.pointMul (hashNumber head key' m') P') = b := by
  unfold comparedPoints at h
  cases h1 : Ed25519.pointDecompress key with
  | none => rw [h1] at h; cases h
  | some P =>
    cases h2 : Ed25519.pointDecompress key' with
    | none => rw [h1, h2] at h; cases h
    | some P' =>
      rw [h1, h2] at h
      exact ⟨P, P', rfl, rfl, Option.some.inj h⟩

theorem one_compared : comparedPoints (oneSignature.take 32) twoKey signingMessage neutralKey secondMessage = some true := by
  decide +kernel

theorem first_compared : comparedPoints fifthHead firstKey signingMessage otherKey signingMessage = some false := by
  decide +kernel

/-- `C99_iff`: what is accepted under the key of order two is accepted under the neutral key too, on another document. -/
example (pub pub' : signing.EdPub) (h : signing.edPubBytes pub = twoKey) (h' : signing.edPubBytes pub' = neutralKey) :
    Accepts signing pub' secondMessage (multibaseEncode58 oneSignature) := by
  obtain ⟨P, P', h1, h2, h3⟩ := compared_some one_compared
  have hs := one_shown pub h
  generalize oneSignature = sig at hs h3 ⊢
  refine (C99_iff signing_rfc signing_jcsLaws pub pub' P P' (h ▸ h1) (h' ▸ h2) _ _ _ hs _ _ (.base58 (multibaseEncode58_spec _))).mpr ?_
  rw [h, h']
  exact h3

/-- `C99_iff`: and what the first key pair signed is refused under the key of another. -/
example : ∃ a, Shown (signing.edPub firstPair) signingMessage a ∧
    ∀ base t, IsMultibase signing base a t → ¬ Accepts signing (signing.edPub otherPair) signingMessage t := by
  have hs := first_shown
  have e1 := fifth_head' firstPair signingVC
  generalize fifth firstPair signingVC = a at hs e1
  refine ⟨a, hs, fun base t ht h => ?_⟩
  obtain ⟨P, P', h1, h2, h3⟩ := compared_some first_compared
  have := (C99_iff signing_rfc signing_jcsLaws _ _ P P' (firstKey_eq ▸ h1) (otherKey_eq ▸ h2) _ _ _ hs _ _ ht).mp h
  rw [e1, firstKey_eq, otherKey_eq, h3] at this
  cases this

end Verif.Props
