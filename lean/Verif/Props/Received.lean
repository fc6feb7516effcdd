import Verif.Concrete.X25519Twist
import Verif.Props.Agreement

/-
C94: what received agreement keys do. Documents come from others, and `decode_pub_key_agreement`
(core/src/doc/mod.rs:91-107) reads any 32 bytes as a key. The theorems say for every one of them what X25519 computes
from it, with which keys everybody computes the same, and when two of them amount to the same key. The code never computes
a shared secret; this is about what users of the decoded keys get.
-/

namespace Verif.Spec

/-- The u-coordinate in a published key: the highest bit is ignored, the rest is taken modulo `2 ^ 255 - 19`
(RFC 7748, section 5). -/
def received (b : Bytes) : Ed25519.F := ((little b % 2 ^ 255 : Nat) : Ed25519.F)

/-- It is the u-coordinate of a point of curve25519. -/
def OnCurve (b : Bytes) : Prop := ∃ v : Ed25519.F, v ^ 2 = received b ^ 3 + 486662 * received b ^ 2 + received b

/-- The u-coordinates of points of order 1, 2, 4 and 8 of the curve and of its twist. -/
def smallAgreement : List Nat :=
  [0, 1, 325606250916557431795983626356110631294008115727848805560023387167927233504,
    39382357235489614581723060781553021112529911719440698176882885853963445705823, 2 ^ 255 - 20]

/-- The key in these bytes has one of them. -/
def IsSmall (b : Bytes) : Prop := little b % 2 ^ 255 % (2 ^ 255 - 19) ∈ smallAgreement

/-- A quarter of the number of points of the twist. -/
def twistOrder : Nat := 2 ^ 253 - 55484635554744707071703875581767296995

end Verif.Spec

namespace Verif.X25519
open Spec
open Blake3 (leVal leBytes leBytes_length)
open Ed25519 (p q F cast_eq_iff twistQ)

theorem received_eq (b : Bytes) : received b = ((decodeU b : Nat) : F) := by
  unfold received decodeU
  rw [little_eq]

theorem received_val (b : Bytes) : (received b).val = little b % 2 ^ 255 % (2 ^ 255 - 19) := by
  unfold received
  rw [ZMod.val_natCast]
  rfl

theorem twistOrder_eq : twistOrder = twistQ := by decide +kernel

theorem curve_of {P : Curve25519} (h : P ≠ 0) : ∃ v : F, v ^ 2 = uCoord P ^ 3 + 486662 * uCoord P ^ 2 + uCoord P := by
  cases P with
  | zero => exact absurd rfl h
  | some u v hn => exact ⟨v, Montgomery.equation hn⟩

/-- `-1` is not the u-coordinate of a point of the curve. -/
theorem minus_one (v : F) : v ^ 2 ≠ 486660 := by
  intro h
  have hd : (486660 : F) ^ ((p - 1) / 2) = -1 := by
    have : ((486660 : Nat) : F) ^ ((p - 1) / 2) = -1 := by
      rw [← Ed25519.cast_powMod (by decide +kernel), Ed25519.neg_one_eq, cast_eq_iff]
      decide +kernel
    rwa [Nat.cast_ofNat] at this
  have hne : (486660 : F) ≠ 0 := by
    intro h0
    have : ((486660 : Nat) : F) = ((0 : Nat) : F) := by rw [Nat.cast_ofNat, h0, Nat.cast_zero]
    rw [cast_eq_iff] at this
    revert this
    decide +kernel
  have hs : v ≠ 0 := by
    rintro rfl
    exact hne (by rw [← h]; ring)
  have h1 : (486660 : F) ^ ((p - 1) / 2) = 1 := by
    rw [← h, ← pow_mul, show 2 * ((p - 1) / 2) = p - 1 by decide +kernel]
    exact ZMod.pow_card_sub_one_eq_one hs
  rw [h1] at hd
  exact two_ne (by linear_combination hd)

theorem mem_small (x : Nat) : x ∈ smallAgreement ↔ x ∈ smallU ∨ x = p - 1 := by
  have e : smallAgreement = smallU ++ [p - 1] := by decide +kernel
  rw [e, List.mem_append, List.mem_singleton]

theorem val_minus_one {x : F} (h : x.val = p - 1) : x = -1 := by
  have e := ZMod.natCast_rightInverse x
  rw [← e, h, Ed25519.neg_one_eq]

/-- The points behind a key: on the curve or on the twist. -/
theorem point_cases (b : Bytes) :
    (OnCurve b ∧ ∃ P : Curve25519, P ≠ 0 ∧ uCoord P = received b ∧ ((received b).val ∈ smallAgreement ↔ 8 • P = 0)) ∨
    (¬ OnCurve b ∧ ∃ P : Twist25519, P ≠ 0 ∧ twistU P = received b ∧
      ((received b).val ∈ smallAgreement ↔ 4 • P = 0)) := by
  by_cases h : OnCurve b
  · left
    refine ⟨h, ?_⟩
    obtain ⟨v, hv⟩ := h
    obtain ⟨P, h0, hP⟩ := point_of hv
    refine ⟨P, h0, hP, ?_⟩
    rw [mem_small, small_uCoord P h0, hP]
    refine ⟨fun h => h.resolve_right (fun h1 => ?_), .inl⟩
    rw [val_minus_one h1] at hv
    exact minus_one v (by rw [hv]; norm_num)
  · right
    refine ⟨h, ?_⟩
    obtain ⟨P, h0, hP⟩ := Twist.point_of (x := received b) (fun v hv => h ⟨v, hv⟩)
    refine ⟨P, h0, hP, ?_⟩
    rw [mem_small, Twist.twistU_small P h0, hP]
    refine ⟨fun h1 => h1.imp_left (fun h2 => ?_), fun h1 => h1.imp_left (fun h2 => ?_)⟩
    · exfalso
      obtain ⟨k, k0, k8, hk⟩ := uCoord_mem _ h2
      rw [ZMod.natCast_rightInverse (received b)] at hk
      obtain ⟨v, hv⟩ := curve_of (smul_eighth_ne k k0 k8)
      rw [hk] at hv
      exact h ⟨v, hv⟩
    · rw [h2]
      exact List.mem_cons_self

/-- A map that forgets signs, after multiplication. -/
theorem twins {G : Type} [AddCommGroup G] {u : G → F} {n c : Nat} (hn : ∀ P : G, n • P = 0 ↔ c • P = 0)
    (h0 : ∀ P : G, u (n • P) = 0 ↔ c • P = 0) (hu : ∀ {P Q : G}, P ≠ 0 → Q ≠ 0 → (u P = u Q ↔ P = Q ∨ P = -Q)) (P Q : G) :
    u (n • P) = u (n • Q) ↔ c • P = c • Q ∨ c • P = -(c • Q) := by
  by_cases hP : c • P = 0
  · rw [(h0 P).mpr hP, hP, zero_eq_neg, eq_comm, h0, eq_comm (a := 0), or_self]
  · by_cases hQ : c • Q = 0
    · rw [(h0 Q).mpr hQ, hQ, neg_zero, or_self, h0]
    · rw [hu ((hn P).not.mpr hP) ((hn Q).not.mpr hQ), ← sub_eq_zero, ← nsmul_sub, hn, eq_neg_iff_add_eq_zero, ← nsmul_add, hn,
        nsmul_sub, sub_eq_zero, nsmul_add, ← eq_neg_iff_add_eq_zero]

theorem curve_twins (s : Bytes) (P Q : Curve25519) :
    uCoord (decodeScalar s • P) = uCoord (decodeScalar s • Q) ↔ 8 • P = 8 • Q ∨ 8 • P = -(8 • Q : Curve25519) :=
  twins (scalar_kills s) (uCoord_scalar s) (fun h h' => uCoord_eq h h') P Q

theorem twist_twins (s : Bytes) (P Q : Twist25519) :
    twistU (decodeScalar s • P) = twistU (decodeScalar s • Q) ↔ 4 • P = 4 • Q ∨ 4 • P = -(4 • Q : Twist25519) :=
  twins (Twist.scalar_kills s) (Twist.twistU_scalar s) (fun h h' => Twist.twistU_eq h h') P Q

/-- A value on the curve is not one on the twist, but for 0. -/
theorem mixed (s : Bytes) (P : Curve25519) (Q : Twist25519) (h : uCoord (decodeScalar s • P) = twistU (decodeScalar s • Q)) :
    8 • P = 0 ∧ 4 • Q = 0 := by
  have hz : uCoord (decodeScalar s • P) = 0 := by
    obtain ⟨j, hj⟩ := eight_smul P
    have e := scalar_smul s P j hj
    generalize decodeScalar s • Q = Q' at h
    rw [e] at h ⊢
    generalize hR : (decodeScalar s / 8 * j) • base = R at h ⊢
    cases R with
    | zero => rfl
    | some u v hn =>
      cases Q' with
      | zero => exact h
      | some x y hn' =>
        exfalso
        obtain ⟨rfl, -⟩ := Twist.apart hn hn' h
        have h2 : 2 • (WeierstrassCurve.Affine.Point.some u 0 hn : Curve25519) = 0 := by
          rw [two_nsmul]
          exact WeierstrassCurve.Affine.Point.add_self_of_Y_eq (by rw [Montgomery.negY_eq, neg_zero])
        rw [← hR, ← mul_nsmul', smul_base] at h2
        have h3 := (Nat.Coprime.coprime_dvd_right (by decide) coprime_q_eight : Nat.Coprime q 2).dvd_of_dvd_mul_left h2
        rw [(smul_base _).mpr h3] at hR
        exact WeierstrassCurve.Affine.Point.some_ne_zero _ hR.symm
  exact ⟨(uCoord_scalar s P).mp hz, (Twist.twistU_scalar s Q).mp (h ▸ hz)⟩

theorem value_curve (s b : Bytes) (P : Curve25519) (hP : uCoord P = received b) :
    x25519 s b = leBytes 32 (uCoord (decodeScalar s • P)).val := by
  rw [received_eq] at hP
  by_cases h : uCoord P = 0
  · have h8 : 8 • P = 0 := by
      by_cases h0 : P = 0
      · rw [h0, nsmul_zero]
      · rw [small_uCoord P h0, h, ZMod.val_zero]
        exact List.mem_cons_self
    rw [x25519_zero s b (hP.symm.trans h), (uCoord_scalar s P).mpr h8, ZMod.val_zero]
    decide
  · exact x25519_eq s b P hP h

theorem value_twist (s b : Bytes) (P : Twist25519) (hP : twistU P = received b) :
    x25519 s b = leBytes 32 (twistU (decodeScalar s • P)).val := by
  rw [received_eq] at hP
  by_cases h : twistU P = 0
  · have h4 : 4 • P = 0 := by
      by_cases h0 : P = 0
      · rw [h0, nsmul_zero]
      · rw [Twist.twistU_small P h0, h, ZMod.val_zero]
        exact .inl rfl
    rw [x25519_zero s b (hP.symm.trans h), (Twist.twistU_scalar s P).mpr h4, ZMod.val_zero]
    decide
  · exact Twist.x25519_eq s b P hP h

theorem leBytes_eq (x y : F) : leBytes 32 x.val = leBytes 32 y.val ↔ x = y := ⟨leBytes_injective, fun h => by rw [h]⟩

theorem leBytes_zero (x : F) : leBytes 32 x.val = List.replicate 32 0 ↔ x = 0 := by
  rw [← leBytes_eq x 0, ZMod.val_zero]
  exact Iff.rfl

theorem isSmall_iff (b : Bytes) : IsSmall b ↔ (received b).val ∈ smallAgreement := by
  unfold IsSmall
  rw [received_val]

end Verif.X25519

namespace Verif.Props
open Verif Spec
open Verif.X25519 (x25519)

/-- C94: the points behind the keys. Curve25519 has `8 q` points, `q` being the order of the base point, its twist `4 q'`;
`q` and `q'` are prime. -/
theorem C94_points : Nat.card Curve25519 = 8 * order25519 ∧ Nat.card Twist25519 = 4 * twistOrder ∧
    order25519.Prime ∧ twistOrder.Prime := by
  have hq : order25519 = Ed25519.q := by decide +kernel
  rw [X25519.card_points, X25519.Twist.card_points, X25519.twistOrder_eq, hq]
  exact ⟨Nat.mul_comm _ _, Nat.mul_comm _ _, Ed25519.q_prime, Ed25519.twistQ_prime⟩

/-- C94: any 32 bytes in hex in an entry for key agreement are decoded as a key with these bytes. -/
theorem C94_read {E : Env} (X : X25519Keys E) (e : Primary) (ht : e.verificationType = "X25519KeyAgreementKey2020".toList)
    (b : Bytes) (hm : HoldsHex E e.multibase b) (hl : b.length = 32) :
    ∃ k, e.decodePubKey E = .ok (.ecdh k) ∧ E.dhPubBytes k = b := by
  cases hk : E.dhPubOfBytes b with
  | none => exact absurd hk (X.reads b hl)
  | some k => exact ⟨k, (C15_ecdh e k).mpr ⟨ht, b, hm, hk⟩, X.bytes b k hk⟩

/-- C94: what X25519 computes from any key: the u-coordinate of the multiple, by the scalar of the secret, of a point with
the u-coordinate in the key; there is one on the curve or on the twist. -/
theorem C94_value (s b : Bytes) (n : Nat) (hn : IsScalar s n) :
    (∀ P : Curve25519, uCoord P = received b → IsU (x25519 s b) (uCoord (n • P))) ∧
    (∀ P : Twist25519, twistU P = received b → IsU (x25519 s b) (twistU (n • P))) ∧
    (OnCurve b → ∃ P : Curve25519, P ≠ 0 ∧ uCoord P = received b) ∧
    (¬ OnCurve b → ∃ P : Twist25519, P ≠ 0 ∧ twistU P = received b) := by
  rw [X25519.scalar_unique hn]
  refine ⟨fun P hP => ?_, fun P hP => ?_, ?_, ?_⟩
  · rw [X25519.value_curve s b P hP]
    exact X25519.isU _
  · rw [X25519.value_twist s b P hP]
    exact X25519.isU _
  · rintro ⟨v, hv⟩
    exact X25519.point_of hv
  · intro h
    exact X25519.Twist.point_of (fun v hv => h ⟨v, hv⟩)

/-- C94: everybody computes the all-zero value from a key with one of five u-coordinates, and nobody from any other. -/
theorem C94_zero (s b : Bytes) : x25519 s b = List.replicate 32 0 ↔ IsSmall b := by
  rw [X25519.isSmall_iff]
  rcases X25519.point_cases b with ⟨-, P, -, hP, hs⟩ | ⟨-, P, -, hP, hs⟩
  · rw [X25519.value_curve s b P hP, hs, X25519.leBytes_zero, X25519.uCoord_scalar]
  · rw [X25519.value_twist s b P hP, hs, X25519.leBytes_zero, X25519.Twist.twistU_scalar]

/-- C94: from any other key two secrets give the same value exactly if their scalars are equal or opposite: they add up to
eight times the order of the base point, if the key is on the curve, or of a point of prime order of the twist. -/
theorem C94_shared (s s' b : Bytes) (hb : ¬ IsSmall b) (n n' : Nat) (hn : IsScalar s n) (hn' : IsScalar s' n') :
    (OnCurve b → (x25519 s b = x25519 s' b ↔ n = n' ∨ n + n' = 8 * order25519)) ∧
    (¬ OnCurve b → (x25519 s b = x25519 s' b ↔ n = n' ∨ n + n' = 8 * twistOrder)) := by
  rw [X25519.isSmall_iff] at hb
  rw [X25519.scalar_unique hn, X25519.scalar_unique hn']
  rcases X25519.point_cases b with ⟨h, P, h0, hP, hs⟩ | ⟨h, P, h0, hP, hs⟩
  · refine ⟨fun _ => ?_, fun h' => absurd h h'⟩
    rw [X25519.value_curve s b P hP, X25519.value_curve s' b P hP, X25519.leBytes_eq,
      X25519.uCoord_two s s' P (hs.not.mp hb), X25519.publicKey_iff]
    rfl
  · refine ⟨fun h' => absurd h' h, fun _ => ?_⟩
    rw [X25519.value_twist s b P hP, X25519.value_twist s' b P hP, X25519.leBytes_eq,
      X25519.Twist.twistU_two s s' P (hs.not.mp hb), X25519.twistOrder_eq]

/-- C94: secrets from two exports and any third key. From one on the curve that is not small they give
the same value exactly if the two documents publish the same key. -/
theorem C94_restored {E : Env} (X : X25519Keys E) (A : E.AeadLaw) (v v' : Str) (ops ops' : List (IdOp E))
    (r r' : PrivateKeysRandom) (pw pw' : Str) (out out' : IdentityPrivateKeyPairs)
    (h : (idRun v ops).buildPrivateKeys r pw = .ok out) (h' : (idRun v' ops').buildPrivateKeys r' pw' = .ok out')
    (s s' : Bytes) (e e' : Primary) (hr : Restored E pw out (idRun v ops).toDoc s e)
    (hr' : Restored E pw' out' (idRun v' ops').toDoc s' e') (k : E.DhPub)
    (hc : OnCurve (E.dhPubBytes k)) (hb : ¬ IsSmall (E.dhPubBytes k)) :
    x25519 s (E.dhPubBytes k) = x25519 s' (E.dhPubBytes k) ↔ e.multibase = e'.multibase := by
  rw [(C94_shared s s' _ hb _ _ (X25519.isScalar s) (X25519.isScalar s')).1 hc,
    (C85_same X A v v' ops ops' r r' pw pw' out out' h h' s s' e e' hr hr' _ _ (X25519.isScalar s) (X25519.isScalar s')).1]

/-- C94: the keys the library publishes are on the curve, canonical and not small. -/
theorem C94_own {E : Env} (X : X25519Keys E) (k : E.DhKP) :
    OnCurve (E.dhPubBytes (E.dhPub k)) ∧ little (E.dhPubBytes (E.dhPub k)) < 2 ^ 255 - 19 ∧
    ¬ IsSmall (E.dhPubBytes (E.dhPub k)) := by
  have hU := C85_public X k _ (X25519.isScalar _)
  have hs : ¬ IsSmall (E.dhPubBytes (E.dhPub k)) := by
    rw [← C94_zero (E.dhSecret k), X.pub]
    exact X25519.shared_ne _ _
  have hlt : little (E.dhPubBytes (E.dhPub k)) < 2 ^ 255 - 19 := by
    rw [hU.2]
    exact ZMod.val_lt _
  refine ⟨?_, hlt, hs⟩
  have hr : received (E.dhPubBytes (E.dhPub k)) = uCoord (X25519.decodeScalar (E.dhSecret k) • X25519.base) := by
    unfold received
    rw [Nat.mod_eq_of_lt (by omega), hU.2, ZMod.natCast_rightInverse _]
  have := X25519.curve_of ((X25519.smul_base _).not.mpr (X25519.scalar_ndvd (E.dhSecret k)))
  rw [← hr] at this
  exact this

/-- C94: when two keys amount to the same. Whoever computes the same value from two keys that are not small, with whatever
secret: points with these u-coordinates differ by one of order 1, 2, 4 or 8, both on the curve or both on the twist. -/
theorem C94_twins (s b b' : Bytes) (hb : ¬ IsSmall b) : x25519 s b = x25519 s b' ↔
    (∃ P P' : Curve25519, uCoord P = received b ∧ uCoord P' = received b' ∧ 8 • P = 8 • P') ∨
    (∃ P P' : Twist25519, twistU P = received b ∧ twistU P' = received b' ∧ 4 • P = 4 • P') := by
  rw [X25519.isSmall_iff] at hb
  constructor
  · intro h
    rcases X25519.point_cases b with ⟨-, P, -, hP, hs⟩ | ⟨-, P, -, hP, hs⟩ <;>
      rcases X25519.point_cases b' with ⟨-, P', -, hP', -⟩ | ⟨-, P', -, hP', -⟩
    · rw [X25519.value_curve s b P hP, X25519.value_curve s b' P' hP', X25519.leBytes_eq, X25519.curve_twins] at h
      rcases h with h | h
      · exact .inl ⟨P, P', hP, hP', h⟩
      · exact .inl ⟨P, -P', hP, by rw [Montgomery.uCoord_neg, hP'], by rw [h, neg_nsmul]⟩
    · rw [X25519.value_curve s b P hP, X25519.value_twist s b' P' hP', X25519.leBytes_eq] at h
      exact absurd (X25519.mixed s P P' h).1 (hs.not.mp hb)
    · rw [X25519.value_twist s b P hP, X25519.value_curve s b' P' hP', X25519.leBytes_eq] at h
      exact absurd (X25519.mixed s P' P h.symm).2 (hs.not.mp hb)
    · rw [X25519.value_twist s b P hP, X25519.value_twist s b' P' hP', X25519.leBytes_eq, X25519.twist_twins] at h
      rcases h with h | h
      · exact .inr ⟨P, P', hP, hP', h⟩
      · exact .inr ⟨P, -P', hP, by rw [Twisted.twistU_neg, hP'], by rw [h, neg_nsmul]⟩
  · rintro (⟨P, P', hP, hP', h⟩ | ⟨P, P', hP, hP', h⟩)
    · rw [X25519.value_curve s b P hP, X25519.value_curve s b' P' hP', (X25519.curve_twins s P P').mpr (.inl h)]
    · rw [X25519.value_twist s b P hP, X25519.value_twist s b' P' hP', (X25519.twist_twins s P P').mpr (.inl h)]

/-- C94: so whether two keys amount to the same does not depend on the secret. -/
theorem C94_any (s t b b' : Bytes) : x25519 s b = x25519 s b' ↔ x25519 t b = x25519 t b' := by
  by_cases hb : IsSmall b
  · rw [(C94_zero s b).mpr hb, (C94_zero t b).mpr hb, eq_comm, C94_zero, eq_comm, C94_zero]
  · rw [C94_twins s b b' hb, C94_twins t b b' hb]

/-- C94: keys that differ in the highest bit only, or are the same modulo `2 ^ 255 - 19`, amount to the same. -/
theorem C94_alias (s b b' : Bytes) (h : received b = received b') : x25519 s b = x25519 s b' := by
  rw [X25519.received_eq, X25519.received_eq] at h
  exact X25519.x25519_congr s b b' h

end Verif.Props

namespace Verif.Props
open Verif Spec
open Verif.X25519 (x25519)

/-! ### Keys Alice receives -/

/-- An entry for key agreement with these bytes. -/
def agreementEntry (b : Bytes) : Primary :=
  ⟨"#k".toList, "x".toList, "X25519KeyAgreementKey2020".toList, 'f' :: hexEncode (utf8 (hexEncode b))⟩

theorem agreementEntry_reads (b : Bytes) (h : b.length = 32) :
    ∃ k, (agreementEntry b).decodePubKey standard = .ok (.ecdh k) ∧ standard.dhPubBytes k = b :=
  C94_read standard_agreement _ rfl b ⟨_, _, .base16 (hexEncode_spec _), by rw [← hexDecode_iff, hexDecode_encode]⟩ h

/-- The u-coordinate -1. -/
def minusKey : Bytes := 0xec :: (List.replicate 30 0xff ++ [0x7f])

theorem minus_small : IsSmall minusKey := by
  unfold IsSmall
  decide +kernel

/-- `C94_read`, `C94_zero`: `-1` is decoded as a key, and everybody computes 0 from it. -/
example : ∃ k, (agreementEntry minusKey).decodePubKey standard = .ok (.ecdh k) ∧
    ∀ s, x25519 s (standard.dhPubBytes k) = List.replicate 32 0 := by
  obtain ⟨k, h1, h2⟩ := agreementEntry_reads minusKey rfl
  refine ⟨k, h1, fun s => ?_⟩
  rw [h2, C94_zero]
  exact minus_small

/-- Bob's key, plus the point of order two. -/
def bobTwin : Bytes := X25519.hex "0a68360dfc22a77beba7035ca8469737be2c615e9b8783fba1359dbc93ad8357"
/-- Bob's key, with the highest bit set. -/
def bobTop : Bytes := X25519.hex "de9edb7d7b7dc1b4d35b61c2ece435373f8343c85b78674dadfc7e146f882bcf"

/-- `C94_own`: Bob's key. -/
theorem bob_own : OnCurve (X25519.publicKey bobSecret) ∧ ¬ IsSmall (X25519.publicKey bobSecret) := by
  have hl : bobSecret.length = 32 := by decide +kernel
  generalize bobSecret = s at hl
  have h := C94_own standard_agreement (⟨s, hl⟩ : Bytes32)
  exact ⟨h.1, h.2.2⟩

/-- `C94_twins`, `C94_any`, `C94_alias`: three entries with different keys; whoever computes a secret with Bob computes the
same from all three. -/
example : (∃ k, (agreementEntry bobTwin).decodePubKey standard = .ok (.ecdh k) ∧ standard.dhPubBytes k = bobTwin) ∧
    (∃ k, (agreementEntry bobTop).decodePubKey standard = .ok (.ecdh k) ∧ standard.dhPubBytes k = bobTop) ∧
    bobTwin ≠ X25519.publicKey bobSecret ∧ bobTop ≠ X25519.publicKey bobSecret ∧
    (∀ s, x25519 s (X25519.publicKey bobSecret) = x25519 s bobTwin) ∧
    (∀ s, x25519 s (X25519.publicKey bobSecret) = x25519 s bobTop) ∧
    (∃ P P' : Curve25519, uCoord P = received (X25519.publicKey bobSecret) ∧ uCoord P' = received bobTwin ∧ 8 • P = 8 • P') := by
  have h : x25519 aliceSecret (X25519.publicKey bobSecret) = x25519 aliceSecret bobTwin := by
    rw [bob_public]
    decide +kernel
  refine ⟨agreementEntry_reads _ (by decide +kernel), agreementEntry_reads _ (by decide +kernel), ?_, ?_,
    fun s => (C94_any s aliceSecret _ _).mpr h, fun s => C94_alias s _ _ ?_, ?_⟩
  · rw [bob_public]
    decide +kernel
  · rw [bob_public]
    decide +kernel
  · rw [bob_public]
    unfold received
    have : little (X25519.hex "de9edb7d7b7dc1b4d35b61c2ece435373f8343c85b78674dadfc7e146f882b4f") % 2 ^ 255 =
      little bobTop % 2 ^ 255 := by decide +kernel
    rw [this]
  · rcases (C94_twins _ _ _ bob_own.2).mp h with h | ⟨P, P', hP, -, h⟩
    · exact h
    · exfalso
      have hc := (C94_value aliceSecret (X25519.publicKey bobSecret) _ (X25519.isScalar _)).2.2.1 bob_own.1
      obtain ⟨Q, hQ0, hQ⟩ := hc
      have := X25519.mixed aliceSecret Q P (by
        apply X25519.leBytes_injective
        rw [← X25519.value_curve aliceSecret _ Q hQ, ← X25519.value_twist aliceSecret _ P hP])
      apply bob_own.2
      rw [← C94_zero aliceSecret, X25519.value_curve aliceSecret _ Q hQ, X25519.leBytes_zero, X25519.uCoord_scalar]
      exact this.1

/-- The u-coordinate 3, on the twist. -/
def threeKey : Bytes := 3 :: List.replicate 31 0

theorem three_received : received threeKey = ((3 : Nat) : Ed25519.F) := by
  unfold received
  have : little threeKey % 2 ^ 255 = 3 := by decide +kernel
  rw [this]

theorem three_y : ∃ x y h, X25519.Twist.three = WeierstrassCurve.Affine.Point.some x y h ∧ y ≠ 0 := by
  refine ⟨_, _, _, rfl, fun h => ?_⟩
  rw [← Nat.cast_zero, Ed25519.cast_eq_iff] at h
  revert h
  decide +kernel

theorem three_off : ¬ OnCurve threeKey := by
  intro h
  obtain ⟨P, h0, hP⟩ := (C94_value [] threeKey _ (X25519.isScalar _)).2.2.1 h
  have hT := X25519.Twist.twistU_three
  rw [← three_received, ← hP] at hT
  cases P with
  | zero => exact absurd rfl h0
  | some u v hn =>
    obtain ⟨x, y, hn', e, hy⟩ := three_y
    rw [e] at hT
    exact hy (X25519.Twist.apart hn hn' hT.symm).2

theorem three_large : ¬ IsSmall threeKey := by
  unfold IsSmall
  decide +kernel

def onesSecret : Bytes := List.replicate 32 0xff
def onesTwin : Bytes := X25519.hex "f0c0a2305aced97e9a3286d0156210b2feffffffffffffffffffffffffffff7f"

/-- `C94_shared`: on the twist two secrets with different public keys compute the same; on Bob's key they do not. -/
example : X25519.publicKey onesSecret ≠ X25519.publicKey onesTwin ∧ x25519 onesSecret threeKey = x25519 onesTwin threeKey ∧
    x25519 onesSecret (X25519.publicKey bobSecret) ≠ x25519 onesTwin (X25519.publicKey bobSecret) := by
  refine ⟨?_, ?_, ?_⟩
  · rw [Ne, X25519.publicKey_iff]
    decide +kernel
  · rw [(C94_shared _ _ threeKey three_large _ _ (X25519.isScalar _) (X25519.isScalar _)).2 three_off]
    decide +kernel
  · rw [Ne, (C94_shared _ _ _ bob_own.2 _ _ (X25519.isScalar _) (X25519.isScalar _)).1 bob_own.1]
    decide +kernel

/-- `C94_restored`: Alice and the holder of the secret zero get different values from Bob's key, and their documents publish different ones. -/
example (out out' : IdentityPrivateKeyPairs) (e e' : Primary)
    (h : (idRun "did:alice".toList aliceOps).buildPrivateKeys ⟨toyRandom, toyRandom, toyRandom, toyRandom⟩ "pw".toList = .ok out)
    (h' : (idRun "did:x".toList zeroOps).buildPrivateKeys ⟨toyRandom, toyRandom, toyRandom, toyRandom⟩ "pw".toList = .ok out')
    (g : Restored standard "pw".toList out (idRun "did:alice".toList aliceOps).toDoc aliceSecret e)
    (g' : Restored standard "pw".toList out' (idRun "did:x".toList zeroOps).toDoc zeroSecret e') :
    x25519 aliceSecret (X25519.publicKey bobSecret) ≠ x25519 zeroSecret (X25519.publicKey bobSecret) ∧ e.multibase ≠ e'.multibase := by
  have hx : x25519 aliceSecret (X25519.publicKey bobSecret) ≠ x25519 zeroSecret (X25519.publicKey bobSecret) := by
    rw [Ne, (C94_shared _ _ _ bob_own.2 _ _ (X25519.isScalar _) (X25519.isScalar _)).1 bob_own.1]
    decide +kernel
  refine ⟨hx, fun hm => hx ?_⟩
  obtain ⟨k, -, h2⟩ := agreementEntry_reads (X25519.publicKey bobSecret) (X25519.publicKey_length _)
  have := (C94_restored standard_agreement (C78_laws standard_standard.actual).2 _ _ _ _ _ _ _ _ out out' h h' _ _ e e' g g' k
    (by rw [h2]; exact bob_own.1) (by rw [h2]; exact bob_own.2)).mpr hm
  rwa [h2] at this

end Verif.Props
