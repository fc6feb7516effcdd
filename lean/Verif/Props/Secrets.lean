import Verif.Props.Binding
import Verif.Props.Order
import Verif.Props.Traces

/-
C95: what proof values say about the secret key. A signature consists of a point R and a number s, and the number behind R is
never shown. Two with the same R tell the secret scalar, and whoever has the scalar signs every document. The signer of this
library repeats R only on a collision of SHA-512 modulo the group order (core/src/verifiable/proof/eddsa.rs:36-68). That a
single proof value hides the scalar is not claimed.
-/

namespace Verif.Spec
open Verif Verif.Props

/-- A message and a signature in a text that verifies under a public key: of a credential or of a presentation. -/
inductive Shown {E : Env} (pub : E.EdPub) : Bytes → Bytes → Prop
  | vc {bs sig : Bytes} {purpose : ProofPurpose} {v : VC E} {q : Proof} {base : MBase} : AcceptedVC pub bs purpose v → v.proof = some q →
      IsMultibase E base sig q.proofValue → Shown pub (message E (optionBytes E (unvalued q)) (vcBytes (unsignedVC v))) sig
  | vp {bs sig : Bytes} {purpose : ProofPurpose} {v : VP E} {q : Proof} {base : MBase} : AcceptedVP pub bs purpose v → v.proof = some q →
      IsMultibase E base sig q.proofValue → Shown pub (message E (optionBytes E (unvalued q)) (vpBytes (unsignedVP v))) sig

/-- A message and a signature in a document a key pair signed, or of bytes it signed as the account's key. -/
inductive Issued {E : Env} (kp : E.EdKP) : Bytes → Bytes → Prop
  | vc {v out : VC E} {opts q : Proof} {sig : Bytes} : Props.sign E (VC E) kp v opts = .ok out → out.proof = some q →
      IsMultibase58 sig q.proofValue → Issued kp (message E (optionBytes E opts) (vcBytes v)) sig
  | vp {v out : VP E} {opts q : Proof} {sig : Bytes} : Props.sign E (VP E) kp v opts = .ok out → out.proof = some q →
      IsMultibase58 sig q.proofValue → Issued kp (message E (optionBytes E opts) (vpBytes v)) sig
  | raw (a : Account E) (m : Bytes) : a.pair = kp → Issued kp m (a.sign m)

/-- The order of the base point. -/
def groupOrder : Nat := 2 ^ 252 + 27742317777372353535851937790883648493

/-- Why two signed documents have the same first half of the signature although they differ: a collision of SHA-256 on the
options, one on the documents, or one of SHA-512 modulo the group order on two messages after the same bytes. -/
inductive Repeats (E : Env) (before o d o' d' : Bytes) : Prop where
  | options (hne : o ≠ o') (h : E.sha256 o = E.sha256 o')
  | document (hne : d ≠ d') (h : E.sha256 d = E.sha256 d')
  | number (hne : message E o d ≠ message E o' d')
      (h : Blake3.leVal (Sha2.sha512 (before ++ message E o d)) % groupOrder =
        Blake3.leVal (Sha2.sha512 (before ++ message E o' d')) % groupOrder)

/-- The number of the hash of a first half, a public key and a message. -/
def hashNumber (head key m : Bytes) : Nat := Blake3.leVal (Sha2.sha512 (head ++ key ++ m)) % groupOrder

/-- The signature that the number `x` for the secret and the number `r` for the first half give. -/
def madeFrom (x r : Nat) (key m : Bytes) : Bytes :=
  Ed25519.pointCompress (Ed25519.pointMul (r % groupOrder) Ed25519.base) ++
    Blake3.leBytes 32 ((r + hashNumber (Ed25519.pointCompress (Ed25519.pointMul (r % groupOrder) Ed25519.base)) key m * x) % groupOrder)

end Verif.Spec

namespace Verif.Ed25519
open Spec
open Blake3 (leVal leBytes leBytes_length)

theorem groupOrder_eq : groupOrder = q := rfl

theorem hashNumber_eq (a b m : Bytes) : hashNumber a b m = hashModQ (a ++ b ++ m) := rfl

/-- Accepted signatures, with the second half read as a number. -/
theorem verify_secret {secret m sig : Bytes} (h : verify (publicKey secret) m sig = true) :
    ∃ R, sig.take 32 = enc R ∧ leVal (sig.drop 32) < q ∧
      leVal (sig.drop 32) • B = R + (hashModQ (sig.take 32 ++ publicKey secret ++ m) * secretScalar secret) • B := by
  obtain ⟨A, R, s, eA, hs, rfl, e⟩ := (verify_iff _ _ _).mp h
  have ht : (enc R ++ leBytes 32 s).take 32 = enc R := List.take_left' (enc_length R)
  have hd : (enc R ++ leBytes 32 s).drop 32 = leBytes 32 s := List.drop_left' (enc_length R)
  rw [publicKey_eq] at eA
  cases enc_injective eA
  rw [ht, hd, leVal_leBytes (lt_trans hs (by decide +kernel))]
  refine ⟨R, rfl, hs, ?_⟩
  rw [mul_nsmul']
  exact e

theorem smul_B_iff (a b : Nat) : a • B = b • B ↔ a % q = b % q := by
  rw [nsmul_eq_nsmul_iff_modEq, order_B]
  exact Iff.rfl

theorem mod_zmod (a b : Nat) : a % q = b % q ↔ (a : ZMod q) = (b : ZMod q) := (ZMod.natCast_eq_natCast_iff' a b q).symm

/-- Two signatures with the same first half: a linear equation for the scalar. -/
theorem scalar_two {secret m m' sig sig' : Bytes} (h : verify (publicKey secret) m sig = true)
    (h' : verify (publicKey secret) m' sig' = true) (hh : sig.take 32 = sig'.take 32)
    (hne : hashModQ (sig.take 32 ++ publicKey secret ++ m) ≠ hashModQ (sig.take 32 ++ publicKey secret ++ m')) {x : Nat} (hx : x < q) :
    (hashModQ (sig.take 32 ++ publicKey secret ++ m) * x + leVal (sig'.drop 32)) % q =
      (hashModQ (sig.take 32 ++ publicKey secret ++ m') * x + leVal (sig.drop 32)) % q ↔ x = secretScalar secret % q := by
  have : Fact q.Prime := ⟨q_prime⟩
  obtain ⟨R, e1, -, e2⟩ := verify_secret h
  obtain ⟨R', e1', -, e2'⟩ := verify_secret h'
  rw [← hh] at e1' e2'
  cases enc_injective (e1.symm.trans e1')
  have hl := hashModQ_lt (sig.take 32 ++ publicKey secret ++ m)
  have hl' := hashModQ_lt (sig.take 32 ++ publicKey secret ++ m')
  generalize hashModQ (sig.take 32 ++ publicKey secret ++ m) = k at *
  generalize hashModQ (sig.take 32 ++ publicKey secret ++ m') = k' at *
  generalize leVal (sig.drop 32) = s at *
  generalize leVal (sig'.drop 32) = s' at *
  generalize secretScalar secret = a at *
  have e3 : (s + k' * a) • B = (s' + k * a) • B := by
    rw [add_nsmul, add_nsmul, e2, e2']
    abel
  rw [smul_B_iff, mod_zmod] at e3
  push_cast at e3
  have hk : (k : ZMod q) - (k' : ZMod q) ≠ 0 := by
    rw [sub_ne_zero]
    intro e
    rw [← mod_zmod, Nat.mod_eq_of_lt hl, Nat.mod_eq_of_lt hl'] at e
    exact hne e
  have hxa : x = a % q ↔ (x : ZMod q) = (a : ZMod q) := by
    rw [← mod_zmod, Nat.mod_eq_of_lt hx]
  rw [mod_zmod, hxa]
  push_cast
  constructor
  · intro e
    apply mul_left_cancel₀ hk
    linear_combination e + e3
  · intro e
    rw [e]
    linear_combination -e3

/-- One signature and the number behind its first half. -/
theorem scalar_one {secret m sig : Bytes} (h : verify (publicKey secret) m sig = true) {r : Nat}
    (hr : enc (r • B) = sig.take 32) (hne : hashModQ (sig.take 32 ++ publicKey secret ++ m) ≠ 0) {x : Nat} (hx : x < q) :
    (r + hashModQ (sig.take 32 ++ publicKey secret ++ m) * x) % q = leVal (sig.drop 32) ↔ x = secretScalar secret % q := by
  have : Fact q.Prime := ⟨q_prime⟩
  obtain ⟨R, e1, hs, e2⟩ := verify_secret h
  cases enc_injective (hr.trans e1)
  have hl := hashModQ_lt (sig.take 32 ++ publicKey secret ++ m)
  generalize hashModQ (sig.take 32 ++ publicKey secret ++ m) = k at *
  generalize leVal (sig.drop 32) = s at *
  generalize secretScalar secret = a at *
  rw [← add_nsmul, smul_B_iff, mod_zmod] at e2
  push_cast at e2
  have hk : (k : ZMod q) ≠ 0 := by
    intro e
    rw [show (0 : ZMod q) = ((0 : Nat) : ZMod q) by simp, ← mod_zmod, Nat.mod_eq_of_lt hl, Nat.zero_mod] at e
    exact hne e
  have hxa : x = a % q ↔ (x : ZMod q) = (a : ZMod q) := by
    rw [← mod_zmod, Nat.mod_eq_of_lt hx]
  have hs' : (r + k * x) % q = s ↔ (r + k * x) % q = s % q := by rw [Nat.mod_eq_of_lt hs]
  rw [hs', mod_zmod, hxa]
  push_cast
  constructor
  · intro e
    apply mul_left_cancel₀ hk
    linear_combination e + e2
  · intro e
    rw [e]
    exact e2.symm

/-- What the scalar makes is accepted. -/
theorem verify_madeFrom (secret m : Bytes) (x r : Nat) (hx : x % q = secretScalar secret % q) :
    verify (publicKey secret) m (madeFrom x r (publicKey secret) m) = true := by
  have hr : r % q < q := Nat.mod_lt _ q_prime.pos
  unfold madeFrom
  rw [groupOrder_eq, pointCompress_eq (rep_mul (lt_trans hr q_lt) rep_base)]
  rw [verify_iff]
  refine ⟨secretScalar secret • B, (r % q) • B, _, publicKey_eq secret, Nat.mod_lt _ q_prime.pos, rfl, ?_⟩
  rw [hashNumber_eq, ← mul_nsmul', ← add_nsmul, smul_B_iff, Nat.mod_mod, mod_zmod]
  have hx' := (mod_zmod _ _).mp hx
  push_cast
  rw [hx', ZMod.natCast_mod]

/-- When two signers use the same first half. -/
theorem sign_head (secret m m' : Bytes) : (sign secret m).take 32 = (sign secret m').take 32 ↔
    hashModQ (secretPrefix secret ++ m) = hashModQ (secretPrefix secret ++ m') := by
  have key : ∀ m, (sign secret m).take 32 = enc (hashModQ (secretPrefix secret ++ m) • B) := by
    intro m
    unfold sign
    dsimp only
    rw [pointCompress_eq (rep_mul (lt_trans (hashModQ_lt _) q_lt) rep_base)]
    exact List.take_left' (enc_length _)
  rw [key, key]
  constructor
  · intro e
    have := (smul_B_iff _ _).mp (enc_injective e)
    rwa [Nat.mod_eq_of_lt (hashModQ_lt _), Nat.mod_eq_of_lt (hashModQ_lt _)] at this
  · intro e
    rw [e]

/-- One signature under two keys. -/
theorem verify_other {secret secret' m sig : Bytes} (h : verify (publicKey secret) m sig = true) :
    verify (publicKey secret') m sig = true ↔
      hashModQ (sig.take 32 ++ publicKey secret ++ m) * secretScalar secret % q =
        hashModQ (sig.take 32 ++ publicKey secret' ++ m) * secretScalar secret' % q := by
  obtain ⟨A, R, s, eA, hs, e0, e⟩ := (verify_iff _ _ _).mp h
  have ht : sig.take 32 = enc R := by rw [e0]; exact List.take_left' (enc_length R)
  rw [publicKey_eq] at eA
  cases enc_injective eA
  rw [ht, ← smul_B_iff, mul_nsmul', mul_nsmul']
  constructor
  · intro h'
    obtain ⟨A', R', s', eA', hs', e0', e'⟩ := (verify_iff _ _ _).mp h'
    rw [publicKey_eq] at eA'
    cases enc_injective eA'
    obtain ⟨eR, es⟩ := List.append_inj (e0.symm.trans e0') (by rw [enc_length, enc_length])
    cases enc_injective eR
    have hss : s = s' := by
      have := congrArg leVal es
      rwa [leVal_leBytes (lt_trans hs (by decide +kernel)), leVal_leBytes (lt_trans hs' (by decide +kernel))] at this
    subst hss
    exact add_left_cancel (e.symm.trans e')
  · intro e'
    rw [verify_iff]
    exact ⟨secretScalar secret' • B, R, s, publicKey_eq _, hs, e0, by rw [e, e']⟩

/-- Accepted signatures under any point, with the second half read as a number. -/
theorem verify_point {A : Edwards.Point D} {m sig : Bytes} (h : verify (enc A) m sig = true) :
    ∃ R, sig.take 32 = enc R ∧ leVal (sig.drop 32) < q ∧
      leVal (sig.drop 32) • B = R + hashModQ (sig.take 32 ++ enc A ++ m) • A := by
  obtain ⟨A', R, s, eA, hs, rfl, e⟩ := (verify_iff _ _ _).mp h
  have ht : (enc R ++ leBytes 32 s).take 32 = enc R := List.take_left' (enc_length R)
  have hd : (enc R ++ leBytes 32 s).drop 32 = leBytes 32 s := List.drop_left' (enc_length R)
  cases enc_injective eA
  rw [ht, hd, leVal_leBytes (lt_trans hs (by decide +kernel))]
  exact ⟨R, rfl, hs, e⟩

/-- A linear equation modulo the group order has one solution. -/
theorem linear_unique {k k' s s' : Nat} (hk : k < q) (hk' : k' < q) (hne : k ≠ k') :
    ∃! x, x < q ∧ (k * x + s') % q = (k' * x + s) % q := by
  have : Fact q.Prime := ⟨q_prime⟩
  have hkk : (k : ZMod q) - (k' : ZMod q) ≠ 0 := by
    rw [sub_ne_zero]
    intro e
    rw [← mod_zmod, Nat.mod_eq_of_lt hk, Nat.mod_eq_of_lt hk'] at e
    exact hne e
  refine ⟨(((s : ZMod q) - s') / (k - k')).val, ⟨ZMod.val_lt _, ?_⟩, ?_⟩
  · rw [mod_zmod]
    push_cast
    rw [ZMod.natCast_zmod_val]
    field_simp
    ring
  · rintro y ⟨hy, e⟩
    rw [mod_zmod] at e
    push_cast at e
    have : (y : ZMod q) = (s - s') / (k - k') := by
      rw [eq_div_iff hkk]
      linear_combination e
    rw [← this, ZMod.val_natCast, Nat.mod_eq_of_lt hy]

/-- What the solution has to do with the key: the multiple of the base point, up to a point killed by eight. -/
theorem eight_solution {A R : Edwards.Point D} {k k' s s' x : Nat} (hk : k < q) (hk' : k' < q) (hne : k ≠ k')
    (e : s • B = R + k • A) (e' : s' • B = R + k' • A) (hx : (k * x + s') % q = (k' * x + s) % q) :
    8 • A = 8 • (x • B) := by
  have h1 : (k * x + s') • B = (k' * x + s) • B := (smul_B_iff _ _).mpr hx
  have h2 : k • (A - x • B) = k' • (A - x • B) := by
    rw [add_nsmul, add_nsmul, mul_nsmul', mul_nsmul', e, e'] at h1
    rw [nsmul_sub, nsmul_sub]
    have : k • (x • B) + k' • A = k' • (x • B) + k • A := by
      have h : R + (k • (x • B) + k' • A) = R + (k' • (x • B) + k • A) := by
        rw [add_left_comm, h1, add_left_comm]
      exact add_left_cancel h
    rw [sub_eq_sub_iff_add_eq_add, add_comm (k • A), add_comm (k' • A)]
    exact this.symm
  by_contra hn
  have h8 : 8 • (A - x • B) ≠ 0 := by
    rw [nsmul_sub]
    exact sub_ne_zero.mpr hn
  have h3 := (nsmul_eq_nsmul_iff_modEq.mp h2).of_dvd (q_dvd_order h8)
  exact hne (by rwa [Nat.ModEq, Nat.mod_eq_of_lt hk, Nat.mod_eq_of_lt hk'] at h3)

/-- What the solution makes is accepted for one hash in eight. -/
theorem verify_solution {A : Edwards.Point D} {x : Nat} (hA : 8 • A = 8 • (x • B)) (r : Nat) (m : Bytes)
    (h : hashNumber (pointCompress (pointMul (r % groupOrder) base)) (enc A) m % 8 = 0) :
    verify (enc A) m (madeFrom x r (enc A) m) = true := by
  have hr : r % q < q := Nat.mod_lt _ q_prime.pos
  unfold madeFrom
  rw [groupOrder_eq, pointCompress_eq (rep_mul (lt_trans hr q_lt) rep_base)] at h ⊢
  rw [verify_iff]
  refine ⟨A, (r % q) • B, _, rfl, Nat.mod_lt _ q_prime.pos, rfl, ?_⟩
  rw [hashNumber_eq] at h ⊢
  generalize hashModQ (enc ((r % q) • B) ++ enc A ++ m) = n at h ⊢
  obtain ⟨c, rfl⟩ := Nat.dvd_of_mod_eq_zero h
  have e : (8 * c) • A = (8 * c * x) • B := by
    rw [mul_comm 8 c, mul_nsmul', hA, ← mul_nsmul', ← mul_nsmul']
  rw [e, ← add_nsmul, smul_B_iff, Nat.mod_mod, Nat.mod_add_mod]

end Verif.Ed25519

namespace Verif.Props
open Verif Spec
open Verif.Ed25519 (publicKey enc secretScalar secretPrefix)

/-- What a text that verifies shows is a signature of RFC 8032 on its message. -/
theorem shown_verify {E : Env} {seed : E.EdKP → Bytes} (A : Ed25519Keys E seed) (L : E.JcsLaws) {kp : E.EdKP} {m sig : Bytes}
    (h : Shown (E.edPub kp) m sig) : Ed25519.verify (publicKey (seed kp)) m sig = true := by
  have key : ∀ {m : Bytes} {t : Str} {base : MBase} {sig : Bytes}, IsMultibase E base sig t → Accepts E (E.edPub kp) m t →
      Ed25519.verify (publicKey (seed kp)) m sig = true := by
    rintro m t base sig hb ⟨base', sig', hex, h1, h2, h3⟩
    have e := (mbDecode_iff E t _ _).mpr hb
    rw [(mbDecode_iff E t _ _).mpr h1] at e
    cases e
    rw [isHex_iff.mp h2] at h3
    exact (A.verify _ _ _).mp h3
  cases h with
  | vc ha hq hb => exact key hb (accepted_accepts_vc L ha hq)
  | vp ha hq hb => exact key hb (accepted_accepts_vp L ha hq)

/-- What a key pair signed holds the signature of RFC 8032 of its message. -/
theorem issued_sign {E : Env} {seed : E.EdKP → Bytes} (A : Ed25519Keys E seed) (L : E.JcsLaws) {kp : E.EdKP} {m sig : Bytes}
    (h : Issued kp m sig) : sig = Ed25519.sign (seed kp) m := by
  have key : ∀ {a b : Bytes} {t : Str}, IsMultibase58 a t → IsMultibase58 b t → a = b := by
    intro a b t ha hb
    have e := (mbDecode_iff E t _ _).mpr (.base58 ha)
    rw [(mbDecode_iff E t _ _).mpr (.base58 hb)] at e
    cases e
    rfl
  cases h with
  | vc hs hq hb =>
    obtain ⟨-, -, -, text, ht, rfl⟩ := ((C32_vc L kp _ _).1 _).mp hs
    cases hq
    rw [key hb ht, A.sign]
  | vp hs hq hb =>
    obtain ⟨-, -, -, text, ht, rfl⟩ := ((C32_vp L kp _ _).1 _).mp hs
    cases hq
    rw [key hb ht, A.sign]
  | raw a m ha => rw [← ha]; exact A.sign a.pair m

/-- C95: two documents signed with one key pair have the same first half of the signature exactly when SHA-512 of the second
half of the hashed seed and the message gives the same number modulo the group order. Nothing else, no clock and no chance,
goes into the first half. -/
theorem C95_halves {E : Env} {seed : E.EdKP → Bytes} (A : Ed25519Keys E seed) (L : E.JcsLaws) (kp : E.EdKP) (m m' sig sig' : Bytes)
    (h : Issued kp m sig) (h' : Issued kp m' sig') : sig.take 32 = sig'.take 32 ↔
      Blake3.leVal (Sha2.sha512 ((Sha2.sha512 (seed kp)).drop 32 ++ m)) % groupOrder =
        Blake3.leVal (Sha2.sha512 ((Sha2.sha512 (seed kp)).drop 32 ++ m')) % groupOrder := by
  rw [issued_sign A L h, issued_sign A L h']
  exact Ed25519.sign_head (seed kp) m m'

theorem same_or_repeats {E : Env} (H : E.HashLaws) {before o d o' d' : Bytes}
    (h : Blake3.leVal (Sha2.sha512 (before ++ message E o d)) % groupOrder =
      Blake3.leVal (Sha2.sha512 (before ++ message E o' d')) % groupOrder) : (o = o' ∧ d = d') ∨ Repeats E before o d o' d' := by
  by_cases hm : message E o d = message E o' d'
  · obtain ⟨h1, h2⟩ := C47_separated H _ _ _ _ hm
    by_cases ho : o = o'
    · by_cases hd : d = d'
      · exact .inl ⟨ho, hd⟩
      · exact .inr (.document hd h2)
    · exact .inr (.options ho h1)
  · exact .inr (.number hm h)

/-- C95 (credentials): two credentials signed with one key pair have the same first half only if they are the same, up to
number spelling in the subject, with the same options, or hashes collide on explicit inputs. -/
theorem C95_repeats_vc {E : Env} {seed : E.EdKP → Bytes} (A : Ed25519Keys E seed) (H : E.HashLaws) (L : E.JcsLaws) (kp : E.EdKP)
    (v v' out out' : VC E) (opts opts' q q' : Proof) (sig sig' : Bytes) (hs : sign E (VC E) kp v opts = .ok out)
    (hs' : sign E (VC E) kp v' opts' = .ok out') (hq : out.proof = some q) (hq' : out'.proof = some q')
    (hb : IsMultibase58 sig q.proofValue) (hb' : IsMultibase58 sig' q'.proofValue) (hh : sig.take 32 = sig'.take 32) :
    (SameVC v v' ∧ opts = opts') ∨
      Repeats E ((Sha2.sha512 (seed kp)).drop 32) (optionBytes E opts) (vcBytes v) (optionBytes E opts') (vcBytes v') := by
  rcases same_or_repeats H ((C95_halves A L kp _ _ _ _ (.vc hs hq hb) (.vc hs' hq' hb')).mp hh) with ⟨h1, h2⟩ | h
  · exact .inl ⟨vcBytes_same L (((C32_vc L kp _ _).1 _).mp hs).2.2.1 (((C32_vc L kp _ _).1 _).mp hs').2.2.1 h2, optionBytes_inj L h1⟩
  · exact .inr h

/-- C95 (presentations): the same. -/
theorem C95_repeats_vp {E : Env} {seed : E.EdKP → Bytes} (A : Ed25519Keys E seed) (H : E.HashLaws) (L : E.JcsLaws) (kp : E.EdKP)
    (v v' out out' : VP E) (opts opts' q q' : Proof) (sig sig' : Bytes) (hs : sign E (VP E) kp v opts = .ok out)
    (hs' : sign E (VP E) kp v' opts' = .ok out') (hq : out.proof = some q) (hq' : out'.proof = some q')
    (hb : IsMultibase58 sig q.proofValue) (hb' : IsMultibase58 sig' q'.proofValue) (hh : sig.take 32 = sig'.take 32) :
    (SameVP v v' ∧ opts = opts') ∨
      Repeats E ((Sha2.sha512 (seed kp)).drop 32) (optionBytes E opts) (vpBytes v) (optionBytes E opts') (vpBytes v') := by
  rcases same_or_repeats H ((C95_halves A L kp _ _ _ _ (.vp hs hq hb) (.vp hs' hq' hb')).mp hh) with ⟨h1, h2⟩ | h
  · exact .inl ⟨vpBytes_same L (((C32_vp L kp _ _).1 _).mp hs).2.2.1 (((C32_vp L kp _ _).1 _).mp hs').2.2.1 h2, optionBytes_inj L h1⟩
  · exact .inr h

/-- C95: a credential and a presentation never have the same first half without a collision. -/
theorem C95_repeats_kinds {E : Env} {seed : E.EdKP → Bytes} (A : Ed25519Keys E seed) (H : E.HashLaws) (L : E.JcsLaws) (kp : E.EdKP)
    (v out : VC E) (v' out' : VP E) (opts opts' q q' : Proof) (sig sig' : Bytes) (hs : sign E (VC E) kp v opts = .ok out)
    (hs' : sign E (VP E) kp v' opts' = .ok out') (hq : out.proof = some q) (hq' : out'.proof = some q')
    (hb : IsMultibase58 sig q.proofValue) (hb' : IsMultibase58 sig' q'.proofValue) (hh : sig.take 32 = sig'.take 32) :
    Repeats E ((Sha2.sha512 (seed kp)).drop 32) (optionBytes E opts) (vcBytes v) (optionBytes E opts') (vpBytes v') := by
  rcases same_or_repeats H ((C95_halves A L kp _ _ _ _ (.vc hs hq hb) (.vp hs' hq' hb')).mp hh) with ⟨-, h2⟩ | h
  · exact absurd h2 (vcBytes_ne_vpBytes L v v')
  · exact h

/-- C95: two texts that verify under the public key of a key pair, with the same first half of the signature and different
hash numbers, tell the secret scalar: it is the only solution of a linear equation whose numbers are all public. -/
theorem C95_leak {E : Env} {seed : E.EdKP → Bytes} (A : Ed25519Keys E seed) (L : E.JcsLaws) (kp : E.EdKP) (m m' sig sig' : Bytes)
    (h : Shown (E.edPub kp) m sig) (h' : Shown (E.edPub kp) m' sig') (hh : sig.take 32 = sig'.take 32)
    (hne : hashNumber (sig.take 32) (E.edPubBytes (E.edPub kp)) m ≠ hashNumber (sig.take 32) (E.edPubBytes (E.edPub kp)) m')
    (x : Nat) (hx : x < groupOrder) :
    (hashNumber (sig.take 32) (E.edPubBytes (E.edPub kp)) m * x + Blake3.leVal (sig'.drop 32)) % groupOrder =
      (hashNumber (sig.take 32) (E.edPubBytes (E.edPub kp)) m' * x + Blake3.leVal (sig.drop 32)) % groupOrder ↔
    x = secretScalar (seed kp) % groupOrder := by
  rw [A.pub] at hne ⊢
  exact Ed25519.scalar_two (shown_verify A L h) (shown_verify A L h') hh hne hx

/-- C95: one text that verifies and the number behind its first half tell the secret scalar, unless the hash number is zero. -/
theorem C95_nonce {E : Env} {seed : E.EdKP → Bytes} (A : Ed25519Keys E seed) (L : E.JcsLaws) (kp : E.EdKP) (m sig : Bytes)
    (h : Shown (E.edPub kp) m sig) (r : Nat) (hr : r < groupOrder)
    (he : Ed25519.pointCompress (Ed25519.pointMul r Ed25519.base) = sig.take 32)
    (hne : hashNumber (sig.take 32) (E.edPubBytes (E.edPub kp)) m ≠ 0) (x : Nat) (hx : x < groupOrder) :
    (r + hashNumber (sig.take 32) (E.edPubBytes (E.edPub kp)) m * x) % groupOrder = Blake3.leVal (sig.drop 32) ↔
      x = secretScalar (seed kp) % groupOrder := by
  rw [A.pub] at hne ⊢
  rw [Ed25519.pointCompress_eq (Ed25519.rep_mul (lt_trans hr Ed25519.q_lt) Ed25519.rep_base)] at he
  exact Ed25519.scalar_one (shown_verify A L h) he hne hx

theorem accepts_madeFrom {E : Env} {seed : E.EdKP → Bytes} (A : Ed25519Keys E seed) (kp : E.EdKP) (x r : Nat)
    (hx : x % groupOrder = secretScalar (seed kp) % groupOrder) (m : Bytes) :
    Accepts E (E.edPub kp) m (multibaseEncode58 (madeFrom x r (E.edPubBytes (E.edPub kp)) m)) := by
  refine ⟨_, _, _, .base58 (multibaseEncode58_spec _), hexEncode_spec _, ?_⟩
  rw [A.pub, A.verify]
  exact Ed25519.verify_madeFrom _ _ _ _ hx

/-- C95: whoever has a number equal to the secret scalar modulo the group order signs every credential, with any number for
the first half and without the seed. -/
theorem C95_signs_vc {E : Env} {seed : E.EdKP → Bytes} (A : Ed25519Keys E seed) (L : E.JcsLaws) (N : E.NumLaws) (kp : E.EdKP)
    (x r : Nat) (hx : x % groupOrder = secretScalar (seed kp) % groupOrder) (v : VC E) (opts : Proof) (hv : VCComplete v)
    (ho : GoodOptions E opts) (hp : opts.proofPurpose ≠ .unknown) (hn : Survives E v.credentialSubject.1)
    (hd : v.credentialSubject.1.depth ≤ 126) (text : Str)
    (ht : IsMultibase58 (madeFrom x r (E.edPubBytes (E.edPub kp)) (message E (optionBytes E (unvalued opts)) (vcBytes (unsignedVC v)))) text) :
    ∃ t, ({ v with proof := some { opts with proofValue := text } } : VC E).toJson = .ok t ∧
      VC.parseJsonBytes E (utf8 t.text) = .ok { v with proof := some { opts with proofValue := text } } ∧
      verify E (VC E) (E.edPub kp) (utf8 t.text) opts.proofPurpose = .ok ⟨true, some (unsignedVC v)⟩ := by
  obtain ⟨t, h1, h2⟩ := C26_json_roundtrip N ({ v with proof := some { opts with proofValue := text } } : VC E) hv hn hd
  rw [JSONValue.toBytes, ← utf8_eq] at h2
  refine ⟨t, h1, h2, ((C33_vc L _ _ _ _).mpr ⟨{ v with proof := some { opts with proofValue := text } }, { opts with proofValue := text }, h2, rfl, ⟨ho.1, ho.2, ho.3⟩, rfl, hp, hv, ?_, rfl⟩).1⟩
  rw [ht.unique]
  exact accepts_madeFrom A kp x r hx _

/-- C95: and every presentation. -/
theorem C95_signs_vp {E : Env} {seed : E.EdKP → Bytes} (A : Ed25519Keys E seed) (L : E.JcsLaws) (N : E.NumLaws) (kp : E.EdKP)
    (x r : Nat) (hx : x % groupOrder = secretScalar (seed kp) % groupOrder) (v : VP E) (opts : Proof) (hv : VPComplete v)
    (ho : GoodOptions E opts) (hp : opts.proofPurpose ≠ .unknown)
    (hn : ∀ c ∈ v.verifiableCredential, Survives E c.credentialSubject.1)
    (hd : ∀ c ∈ v.verifiableCredential, c.credentialSubject.1.depth ≤ 124) (text : Str)
    (ht : IsMultibase58 (madeFrom x r (E.edPubBytes (E.edPub kp)) (message E (optionBytes E (unvalued opts)) (vpBytes (unsignedVP v)))) text) :
    ∃ t, ({ v with proof := some { opts with proofValue := text } } : VP E).toJson = .ok t ∧
      VP.parseJsonBytes E (utf8 t.text) = .ok { v with proof := some { opts with proofValue := text } } ∧
      verify E (VP E) (E.edPub kp) (utf8 t.text) opts.proofPurpose = .ok ⟨true, some (unsignedVP v)⟩ := by
  obtain ⟨t, h1, h2⟩ := C27_json_roundtrip N ({ v with proof := some { opts with proofValue := text } } : VP E) hv hn hd
  rw [JSONValue.toBytes, ← utf8_eq] at h2
  refine ⟨t, h1, h2, ((C33_vp L _ _ _ _).mpr ⟨{ v with proof := some { opts with proofValue := text } }, { opts with proofValue := text }, h2, rfl, ⟨ho.1, ho.2, ho.3⟩, rfl, hp, hv, ?_, rfl⟩).1⟩
  rw [ht.unique]
  exact accepts_madeFrom A kp x r hx _

/-- C95: so two such texts are the end of the key: their numbers have one solution, and it signs every message. -/
theorem C95_broken {E : Env} {seed : E.EdKP → Bytes} (A : Ed25519Keys E seed) (L : E.JcsLaws) (kp : E.EdKP) (m m' sig sig' : Bytes)
    (h : Shown (E.edPub kp) m sig) (h' : Shown (E.edPub kp) m' sig') (hh : sig.take 32 = sig'.take 32)
    (hne : hashNumber (sig.take 32) (E.edPubBytes (E.edPub kp)) m ≠ hashNumber (sig.take 32) (E.edPubBytes (E.edPub kp)) m') :
    ∃! x, x < groupOrder ∧
      (hashNumber (sig.take 32) (E.edPubBytes (E.edPub kp)) m * x + Blake3.leVal (sig'.drop 32)) % groupOrder =
        (hashNumber (sig.take 32) (E.edPubBytes (E.edPub kp)) m' * x + Blake3.leVal (sig.drop 32)) % groupOrder ∧
      ∀ r any text, IsMultibase58 (madeFrom x r (E.edPubBytes (E.edPub kp)) any) text → Accepts E (E.edPub kp) any text := by
  have hlt : secretScalar (seed kp) % groupOrder < groupOrder := Nat.mod_lt _ Ed25519.q_prime.pos
  refine ⟨secretScalar (seed kp) % groupOrder, ⟨hlt, (C95_leak A L kp m m' sig sig' h h' hh hne _ hlt).mpr rfl, ?_⟩, ?_⟩
  · intro r any text ht
    rw [ht.unique]
    exact accepts_madeFrom A kp _ r (Nat.mod_mod _ _) any
  · rintro y ⟨hy, he, -⟩
    exact (C95_leak A L kp m m' sig sig' h h' hh hne y hy).mp he

/-- C95: a signature accepted under the public key of one key pair is accepted on the same message under that of another
exactly when hash number times secret scalar is the same for both. -/
theorem C95_two_keys {E : Env} {seed : E.EdKP → Bytes} (A : Ed25519Keys E seed) (L : E.JcsLaws) (kp kp' : E.EdKP) (m sig : Bytes)
    (h : Shown (E.edPub kp) m sig) : (∃ hex, IsHex sig hex ∧ E.edVerify (E.edPub kp') m hex = .ok true) ↔
      hashNumber (sig.take 32) (E.edPubBytes (E.edPub kp)) m * secretScalar (seed kp) % groupOrder =
        hashNumber (sig.take 32) (E.edPubBytes (E.edPub kp')) m * secretScalar (seed kp') % groupOrder := by
  rw [A.pub, A.pub]
  refine Iff.trans ?_ (Ed25519.verify_other (shown_verify A L h))
  rw [← A.verify]
  constructor
  · rintro ⟨hex, h1, h2⟩
    rwa [isHex_iff.mp h1] at h2
  · intro h1
    exact ⟨_, hexEncode_spec _, h1⟩

/-- What a text that verifies shows is a signature of RFC 8032, under every key that is a point. -/
theorem shown_sound {E : Env} (S : Rfc8032Sound E) (L : E.JcsLaws) {pub : E.EdPub}
    (hd : Ed25519.pointDecompress (E.edPubBytes pub) ≠ none) {m sig : Bytes} (h : Shown pub m sig) :
    Ed25519.verify (E.edPubBytes pub) m sig = true := by
  have key : ∀ {m : Bytes} {t : Str} {base : MBase} {sig : Bytes}, IsMultibase E base sig t → Accepts E pub m t →
      Ed25519.verify (E.edPubBytes pub) m sig = true := by
    rintro m t base sig hb ⟨base', sig', hex, h1, h2, h3⟩
    cases isMultibase_bytes hb h1
    rw [isHex_iff.mp h2] at h3
    exact S pub _ _ hd h3
  cases h with
  | vc ha hq hb => exact key hb (accepted_accepts_vc L ha hq)
  | vp ha hq hb => exact key hb (accepted_accepts_vp L ha hq)

/-- C95: the same for every public key that is a point, whoever made it: two texts that verify with the same first half and
different hash numbers have one solution, and it makes proof values that are accepted for one hash in eight. -/
theorem C95_received {E : Env} (V : Rfc8032Verify E) (L : E.JcsLaws) (pub : E.EdPub)
    (hd : Ed25519.pointDecompress (E.edPubBytes pub) ≠ none) (m m' sig sig' : Bytes) (h : Shown pub m sig) (h' : Shown pub m' sig')
    (hh : sig.take 32 = sig'.take 32)
    (hne : hashNumber (sig.take 32) (E.edPubBytes pub) m ≠ hashNumber (sig.take 32) (E.edPubBytes pub) m') :
    (∃! x, x < groupOrder ∧ (hashNumber (sig.take 32) (E.edPubBytes pub) m * x + Blake3.leVal (sig'.drop 32)) % groupOrder =
      (hashNumber (sig.take 32) (E.edPubBytes pub) m' * x + Blake3.leVal (sig.drop 32)) % groupOrder) ∧
    ∀ x, (hashNumber (sig.take 32) (E.edPubBytes pub) m * x + Blake3.leVal (sig'.drop 32)) % groupOrder =
        (hashNumber (sig.take 32) (E.edPubBytes pub) m' * x + Blake3.leVal (sig.drop 32)) % groupOrder →
      ∀ r any text, hashNumber (Ed25519.pointCompress (Ed25519.pointMul (r % groupOrder) Ed25519.base)) (E.edPubBytes pub) any % 8 = 0 →
        IsMultibase58 (madeFrom x r (E.edPubBytes pub) any) text → Accepts E pub any text := by
  have S : Rfc8032Sound E := fun p m sig h => (V p m sig h).mp
  have v := shown_sound S L hd h
  have v' := shown_sound S L hd h'
  have hV := V pub
  cases hQ : Ed25519.pointDecompress (E.edPubBytes pub) with
  | none => exact absurd hQ hd
  | some Q =>
    obtain ⟨A, eA, -⟩ := Ed25519.pointDecompress_some hQ
    rw [eA] at v v' hne hd hV ⊢
    have lt := Ed25519.hashModQ_lt (sig.take 32 ++ Ed25519.enc A ++ m)
    have lt' := Ed25519.hashModQ_lt (sig.take 32 ++ Ed25519.enc A ++ m')
    refine ⟨Ed25519.linear_unique lt lt' hne, ?_⟩
    intro x hx r any text h8 ht
    obtain ⟨R, e1, -, e2⟩ := Ed25519.verify_point v
    obtain ⟨R', e1', -, e2'⟩ := Ed25519.verify_point v'
    rw [← hh] at e1' e2'
    cases Ed25519.enc_injective (e1.symm.trans e1')
    refine ⟨_, _, _, .base58 ht, hexEncode_spec _, (hV _ _ hd).mpr ?_⟩
    exact Ed25519.verify_solution (Ed25519.eight_solution lt lt' hne e2 e2' hx) r any h8

/-! ### Values -/

/-- The sample with another identifier. -/
def secondVC : VC signing := { signingVC with id := "urn:2".toList }

/-- What the scalar of a key pair makes with five behind the first half, on a credential. -/
def fifth (k : signing.EdKP) (v : VC signing) : Bytes :=
  madeFrom (secretScalar k) 5 (signing.edPubBytes (signing.edPub k)) (message signing (optionBytes signing toyProof) (vcBytes v))

theorem fifth_shown (k : signing.EdKP) (v : VC signing) (hv : VCComplete v) (hp : v.proof = none)
    (hd : v.credentialSubject.1.depth ≤ 126) :
    Shown (signing.edPub k) (message signing (optionBytes signing toyProof) (vcBytes v)) (fifth k v) := by
  have hu : unsignedVC v = v := by
    cases v
    cases hp
    rfl
  obtain ⟨t, -, h2, h3⟩ := C95_signs_vc signing_keys signing_jcsLaws signing_numLaws k (secretScalar k) 5 rfl v toyProof hv
    signing_options (by decide) (signing_survives _) hd (multibaseEncode58 (fifth k v)) (by
      rw [hu]
      exact multibaseEncode58_spec _)
  have := Shown.vc (sig := fifth k v) ⟨h2, _, h3, rfl⟩ rfl (.base58 (multibaseEncode58_spec _))
  rw [show unsignedVC { v with proof := some { toyProof with proofValue := multibaseEncode58 (fifth k v) } } = v from hu] at this
  exact this

theorem fifth_head (k : signing.EdKP) (v : VC signing) :
    (fifth k v).take 32 = Ed25519.pointCompress (Ed25519.pointMul 5 Ed25519.base) := by
  have h5 : 5 % groupOrder = 5 := by decide +kernel
  unfold fifth madeFrom
  rw [h5]
  exact List.take_left' (Blake3.leBytes_length _ _)

/-- The signed message. -/
def secondMessage : Bytes :=
  [0x75, 0x3a, 0xf5, 0x1f, 0xd2, 0x04, 0x97, 0xc5, 0xef, 0x5b, 0xf7, 0x34, 0x85, 0xd7, 0xfe, 0x87,
   0x99, 0x16, 0xa8, 0x4e, 0x13, 0xe6, 0xc6, 0x47, 0xa2, 0x10, 0x03, 0x32, 0x27, 0xd5, 0x50, 0x50,
   0xa5, 0x67, 0xa9, 0x40, 0xd8, 0x99, 0x21, 0xea, 0xaf, 0x75, 0x58, 0x5d, 0xcb, 0x33, 0x1e, 0xa4,
   0xdc, 0x15, 0xc9, 0x81, 0x68, 0xc5, 0xa4, 0xd6, 0xf5, 0xa6, 0xe1, 0x11, 0x4f, 0x0d, 0x2d, 0x8a]

theorem second_text : canonicalText signing (vcObject secondVC) =
    "{\"@context\":[\"c\"],\"credentialSubject\":\"b\",\"id\":\"urn:2\",\"issuer\":\"did:prople:x\",\"type\":[\"t\"]}".toList := by
  decide +kernel

theorem second_message : message signing (optionBytes signing toyProof) (vcBytes secondVC) = secondMessage := by
  unfold message optionBytes vcBytes
  rw [signing_texts.1, second_text]
  show Sha2.sha256 _ ++ Sha2.sha256 _ = _
  decide +kernel

/-- Five times the base point. -/
def fifthHead : Bytes :=
  [0xed, 0xc8, 0x76, 0xd6, 0x83, 0x1f, 0xd2, 0x10, 0x5d, 0x0b, 0x43, 0x89, 0xca, 0x2e, 0x28, 0x31,
   0x66, 0x46, 0x92, 0x89, 0x14, 0x6e, 0x2c, 0xe0, 0x6f, 0xae, 0xfe, 0x98, 0xb2, 0x25, 0x48, 0xdf]

theorem fifthHead_eq : Ed25519.pointCompress (Ed25519.pointMul 5 Ed25519.base) = fifthHead := by decide +kernel

/-- The key pair of the first test of RFC 8032. -/
def firstPair : signing.EdKP := Ed25519.secret1

/-- Its public key. -/
def firstKey : Bytes :=
  [0xd7, 0x5a, 0x98, 0x01, 0x82, 0xb1, 0x0a, 0xb7, 0xd5, 0x4b, 0xfe, 0xd3, 0xc9, 0x64, 0x07, 0x3a,
   0x0e, 0xe1, 0x72, 0xf3, 0xda, 0xa6, 0x23, 0x25, 0xaf, 0x02, 0x1a, 0x68, 0xf7, 0x07, 0x51, 0x1a]

theorem firstKey_eq : signing.edPubBytes (signing.edPub firstPair) = firstKey := by
  rw [signing_keys.pub]
  show publicKey Ed25519.secret1 = firstKey
  decide +kernel

theorem fifth_hashes : hashNumber fifthHead firstKey signingMessage ≠ hashNumber fifthHead firstKey secondMessage ∧
    hashNumber fifthHead firstKey signingMessage ≠ 0 := by
  decide +kernel

theorem first_shown : Shown (signing.edPub firstPair) signingMessage (fifth firstPair signingVC) := by
  have h := fifth_shown firstPair signingVC signingVC_complete rfl signing_depth
  generalize fifth firstPair signingVC = sig at h ⊢
  rw [signing_message] at h
  exact h

theorem secondVC_complete : VCComplete secondVC := ⟨by simp [secondVC, signingVC], by simp [secondVC, signingVC], by simp [secondVC, signingVC]⟩

theorem secondVC_depth : secondVC.credentialSubject.1.depth ≤ 126 := by simp [secondVC, signingVC, Json.depth]

theorem secondVC_proof : secondVC.proof = none := rfl

theorem second_shown : Shown (signing.edPub firstPair) secondMessage (fifth firstPair secondVC) := by
  have h := fifth_shown firstPair secondVC secondVC_complete secondVC_proof secondVC_depth
  generalize fifth firstPair secondVC = sig at h ⊢
  rw [second_message] at h
  exact h

theorem fifth_head' (k : signing.EdKP) (v : VC signing) : (fifth k v).take 32 = fifthHead := (fifth_head k v).trans fifthHead_eq

/-- `C95_leak` and `C95_broken`: two credentials signed with the same number behind the first half. `C95_nonce`: the first of them. -/
example : ∃ a b, Shown (signing.edPub firstPair) signingMessage a ∧ Shown (signing.edPub firstPair) secondMessage b ∧
    a.take 32 = b.take 32 ∧
    hashNumber (a.take 32) (signing.edPubBytes (signing.edPub firstPair)) signingMessage ≠
      hashNumber (a.take 32) (signing.edPubBytes (signing.edPub firstPair)) secondMessage ∧
    Ed25519.pointCompress (Ed25519.pointMul 5 Ed25519.base) = a.take 32 ∧
    hashNumber (a.take 32) (signing.edPubBytes (signing.edPub firstPair)) signingMessage ≠ 0 := by
  have h1 := first_shown
  have h2 := second_shown
  have e1 := fifth_head' firstPair signingVC
  have e2 := fifth_head' firstPair secondVC
  generalize fifth firstPair signingVC = a at h1 e1
  generalize fifth firstPair secondVC = b at h2 e2
  refine ⟨a, b, h1, h2, e1.trans e2.symm, ?_⟩
  rw [e1, firstKey_eq]
  exact ⟨fifth_hashes.1, fifthHead_eq, fifth_hashes.2⟩

theorem issued_of (k : signing.EdKP) (v : VC signing) (hv : VCComplete v) :
    Issued k (message signing (optionBytes signing toyProof) (vcBytes v))
      (signing.edSign k (message signing (optionBytes signing toyProof) (vcBytes v))) :=
  .vc (((C32_vc signing_jcsLaws k v toyProof).1 _).mpr ⟨signing_options, by decide, hv, _, multibaseEncode58_spec _, rfl⟩) rfl
    (multibaseEncode58_spec _)

theorem halves_differ : Blake3.leVal (Sha2.sha512 ((Sha2.sha512 firstPair).drop 32 ++ signingMessage)) % groupOrder ≠
    Blake3.leVal (Sha2.sha512 ((Sha2.sha512 firstPair).drop 32 ++ secondMessage)) % groupOrder := by
  decide +kernel

/-- `C95_halves`: the two credentials as the key pair signs them have different first halves. -/
example : ∃ a b, Issued firstPair signingMessage a ∧ Issued firstPair secondMessage b ∧ a.take 32 ≠ b.take 32 := by
  have h1 := issued_of firstPair signingVC signingVC_complete
  have h2 := issued_of firstPair secondVC secondVC_complete
  rw [signing_message] at h1
  rw [second_message] at h2
  generalize signing.edSign firstPair signingMessage = a at h1
  generalize signing.edSign firstPair secondMessage = b at h2
  exact ⟨a, b, h1, h2, fun e => halves_differ ((C95_halves signing_keys signing_jcsLaws firstPair _ _ a b h1 h2).mp e)⟩

/-- `C95_two_keys`: the same key pair on both sides meets the condition. -/
example : ∃ a hex, Shown (signing.edPub firstPair) signingMessage a ∧ IsHex a hex ∧
    signing.edVerify (signing.edPub firstPair) signingMessage hex = .ok true := by
  have h1 := first_shown
  generalize fifth firstPair signingVC = a at h1
  obtain ⟨hex, h2, h3⟩ := (C95_two_keys signing_keys signing_jcsLaws firstPair firstPair signingMessage a h1).mpr (Eq.refl _)
  exact ⟨a, hex, h1, h2, h3⟩

/-- A second key pair. -/
def otherPair : signing.EdKP := List.replicate 32 7

/-- Its public key. -/
def otherKey : Bytes := publicKey (List.replicate 32 7)

theorem otherKey_eq : signing.edPubBytes (signing.edPub otherPair) = otherKey := signing_keys.pub otherPair

theorem other_products : hashNumber fifthHead firstKey signingMessage * secretScalar firstPair % groupOrder ≠
    hashNumber fifthHead otherKey signingMessage * secretScalar otherPair % groupOrder := by
  decide +kernel

/-- `C95_two_keys`: and under that one the signature is refused. -/
example : ∃ a, Shown (signing.edPub firstPair) signingMessage a ∧
    ¬ ∃ hex, IsHex a hex ∧ signing.edVerify (signing.edPub otherPair) signingMessage hex = .ok true := by
  have h1 := first_shown
  have e1 := fifth_head' firstPair signingVC
  generalize fifth firstPair signingVC = a at h1 e1
  refine ⟨a, h1, fun h => ?_⟩
  have := (C95_two_keys signing_keys signing_jcsLaws firstPair otherPair _ a h1).mp h
  rw [e1, firstKey_eq, otherKey_eq] at this
  exact other_products this

/-- `C95_repeats_vc`: its hypotheses hold for every complete credential signed twice; the first halves are the same. -/
example (k : signing.EdKP) (v : VC signing) (hv : VCComplete v) : ∃ out q sig, sign signing (VC signing) k v toyProof = .ok out ∧
    out.proof = some q ∧ IsMultibase58 sig q.proofValue :=
  ⟨_, _, _, ((C32_vc signing_jcsLaws k v toyProof).1 _).mpr ⟨signing_options, by decide, hv, _, multibaseEncode58_spec _, rfl⟩, rfl,
    multibaseEncode58_spec _⟩

/-- `C95_repeats_vp` and `C95_repeats_kinds`: presentations are signed too. -/
example (k : signing.EdKP) (v : VP signing) (hv : VPComplete v) : ∃ out q sig, sign signing (VP signing) k v toyProof = .ok out ∧
    out.proof = some q ∧ IsMultibase58 sig q.proofValue :=
  ⟨_, _, _, ((C32_vp signing_jcsLaws k v toyProof).1 _).mpr ⟨signing_options, by decide, hv, _, multibaseEncode58_spec _, rfl⟩, rfl,
    multibaseEncode58_spec _⟩

/-- The same world, with a hash function that gives the same for everything. -/
def flat : Env := { signing with sha256 := fun _ => List.replicate 32 0 }

theorem flat_keys : Ed25519Keys flat (fun k => k) :=
  ⟨signing_keys.pub, signing_keys.sign, signing_keys.verify, signing_keys.reads, signing_keys.bytes, signing_keys.ext, signing_keys.origin⟩

theorem flat_hashLaws : flat.HashLaws := ⟨fun _ => List.length_replicate, signing_laws.1.2, signing_laws.1.3⟩

theorem flat_jcsLaws : flat.JcsLaws := ⟨signing_jcsLaws.1, signing_jcsLaws.2, signing_jcsLaws.3, signing_jcsLaws.4⟩

theorem flat_message (o d : Bytes) : message flat o d = List.replicate 64 0 := rfl

/-- There, a credential and a presentation have the same first half: the hypotheses of `C95_repeats_kinds` hold, and what it
shows is the collision. -/
example (k : flat.EdKP) (v : VC flat) (w : VP flat) (opts : Proof) (hv : VCComplete v) (hw : VPComplete w) (ho : GoodOptions flat opts)
    (hp : opts.proofPurpose ≠ .unknown) : ∃ out out' q q' sig sig', sign flat (VC flat) k v opts = .ok out ∧
      sign flat (VP flat) k w opts = .ok out' ∧ out.proof = some q ∧ out'.proof = some q' ∧ IsMultibase58 sig q.proofValue ∧
      IsMultibase58 sig' q'.proofValue ∧ sig.take 32 = sig'.take 32 := by
  refine ⟨_, _, _, _, _, _, ((C32_vc flat_jcsLaws k v opts).1 _).mpr ⟨ho, hp, hv, _, multibaseEncode58_spec _, rfl⟩,
    ((C32_vp flat_jcsLaws k w opts).1 _).mpr ⟨ho, hp, hw, _, multibaseEncode58_spec _, rfl⟩, rfl, rfl,
    multibaseEncode58_spec _, multibaseEncode58_spec _, ?_⟩
  rw [flat_message, flat_message]

/-- The sum of the base point and the point of order eight, as a received key (C93). -/
def mixedPub : signing.EdPub := ⟨mixedKey, mixed_reads⟩

theorem mixedPub_bytes : signing.edPubBytes mixedPub = mixedKey := rfl

theorem mixed_eight : 8 • (Ed25519.B + Ed25519.eighth) = 8 • (1 • Ed25519.B) := by
  rw [nsmul_add, Ed25519.eight_eighth, add_zero, one_nsmul]

/-- Forty-six times the base point. -/
def mixedHead : Bytes :=
  [0xfd, 0x67, 0x15, 0x71, 0x4c, 0xa4, 0x42, 0x60, 0x10, 0xf7, 0xc6, 0xc8, 0x70, 0x2d, 0x0b, 0x24,
   0x33, 0x7d, 0x89, 0xb0, 0x18, 0x96, 0xa0, 0x38, 0x14, 0x17, 0x91, 0x4d, 0x20, 0xe8, 0xa4, 0x0d]

theorem mixedHead_eq : Ed25519.pointCompress (Ed25519.pointMul (46 % groupOrder) Ed25519.base) = mixedHead := by decide +kernel

theorem mixed_hashes : hashNumber mixedHead mixedKey signingMessage % 8 = 0 ∧ hashNumber mixedHead mixedKey secondMessage % 8 = 0 ∧
    hashNumber mixedHead mixedKey signingMessage ≠ hashNumber mixedHead mixedKey secondMessage := by
  decide +kernel

theorem mixed_made (m : Bytes) (h : hashNumber mixedHead mixedKey m % 8 = 0) :
    signing.edVerify mixedPub m (hexEncode (madeFrom 1 46 mixedKey m)) = .ok true := by
  have hv : Ed25519.verify mixedKey m (madeFrom 1 46 mixedKey m) = true := by
    rw [mixed_point] at h ⊢
    refine Ed25519.verify_solution mixed_eight 46 m ?_
    rw [mixedHead_eq]
    exact h
  have hb := mixedPub_bytes
  have hr := mixed_reads
  generalize mixedPub = pub at hb ⊢
  rw [← hb] at hv hr ⊢
  exact (signing_rfc pub _ _ hr).mpr hv

theorem mixed_shown (v : VC signing) (hv : VCComplete v) (hp : v.proof = none) (hd : v.credentialSubject.1.depth ≤ 126) (m : Bytes)
    (hm : message signing (optionBytes signing toyProof) (vcBytes v) = m) (h : hashNumber mixedHead mixedKey m % 8 = 0) :
    Shown mixedPub m (madeFrom 1 46 mixedKey m) := by
  have hu : unsignedVC v = v := by
    cases v
    cases hp
    rfl
  have hm' := mixed_made m h
  generalize mixedPub = pub at hm' ⊢
  generalize madeFrom 1 46 mixedKey m = sig at hm' ⊢
  obtain ⟨t, -, h2⟩ := C26_json_roundtrip signing_numLaws ({ v with proof := some { toyProof with proofValue := multibaseEncode58 sig } } : VC signing)
    hv (signing_survives _) hd
  have h3 := (accepted_vc_iff signing_jcsLaws pub t.toBytes .assertionMethod
    { v with proof := some { toyProof with proofValue := multibaseEncode58 sig } }).mpr
    ⟨h2, { toyProof with proofValue := multibaseEncode58 sig }, rfl, ⟨signing_options.1, signing_options.2, signing_options.3⟩, rfl, by decide, hv,
      ⟨_, sig, _, .base58 (multibaseEncode58_spec _), hexEncode_spec _, by
        rw [show unsignedVC { v with proof := some { toyProof with proofValue := multibaseEncode58 sig } } = v from hu]
        exact hm ▸ hm'⟩⟩
  have := Shown.vc (sig := sig) h3 rfl (.base58 (multibaseEncode58_spec _))
  rw [show unsignedVC { v with proof := some { toyProof with proofValue := multibaseEncode58 sig } } = v from hu] at this
  exact hm ▸ this

theorem made_head (m : Bytes) : (madeFrom 1 46 mixedKey m).take 32 = mixedHead := by
  unfold madeFrom
  rw [mixedHead_eq]
  exact List.take_left' (by decide)

/-- `C95_received`: two credentials under a key that belongs to no key pair (`mixed_own`), with the same first half. -/
example : ∃ a b, Shown mixedPub signingMessage a ∧ Shown mixedPub secondMessage b ∧ a.take 32 = b.take 32 ∧
    hashNumber (a.take 32) (signing.edPubBytes mixedPub) signingMessage ≠
      hashNumber (a.take 32) (signing.edPubBytes mixedPub) secondMessage ∧
    Ed25519.pointDecompress (signing.edPubBytes mixedPub) ≠ none := by
  have h1 := mixed_shown signingVC signingVC_complete rfl signing_depth _ signing_message mixed_hashes.1
  have h2 := mixed_shown secondVC secondVC_complete secondVC_proof secondVC_depth _ second_message mixed_hashes.2.1
  have e1 := made_head signingMessage
  have e2 := made_head secondMessage
  generalize madeFrom 1 46 mixedKey signingMessage = a at h1 e1
  generalize madeFrom 1 46 mixedKey secondMessage = b at h2 e2
  refine ⟨a, b, h1, h2, e1.trans e2.symm, ?_⟩
  rw [e1, mixedPub_bytes]
  exact ⟨mixed_hashes.2.2, mixed_reads⟩

end Verif.Props
