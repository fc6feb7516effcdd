import Verif.Concrete.X25519
import Verif.Concrete.Montgomery
import Verif.Concrete.Ed25519Laws

/-
What the Montgomery ladder of `Verif/Concrete/X25519.lean` computes, in the group of points of curve25519.
-/

namespace Verif.Spec

/-- The group of points of curve25519, RFC 7748, section 4.1. -/
abbrev Curve25519 : Type := (montgomery (F := Ed25519.F) 486662).Point

end Verif.Spec

namespace Verif.X25519
open Spec Montgomery WeierstrassCurve.Affine
open Blake3 (leVal leBytes leBytes_length)
open Ed25519 (p q p_prime q_prime F cast_sub' cast_inv' cast_eq_iff leVal_lt leVal_leBytes)

theorem two_ne : (2 : F) ≠ 0 := Ed25519.two_ne

theorem A_ne : (486662 : F) ^ 2 ≠ 4 := by
  intro h
  have : ((486662 ^ 2 : Nat) : F) = ((4 : Nat) : F) := by exact_mod_cast h
  rw [cast_eq_iff] at this
  revert this
  decide +kernel

/-- V(P) of RFC 7748, section 4.1. -/
def baseV : Nat := 14781619447589544791020593568409986887264606134616475288964881837755586237401

theorem base_nonsingular : (montgomery (F := F) 486662).Nonsingular 9 (baseV : F) := by
  rw [nonsingular_iff]
  constructor
  · rw [equation_iff]
    have : ((baseV ^ 2 : Nat) : F) = ((9 ^ 3 + 486662 * 9 ^ 2 + 9 : Nat) : F) := by
      rw [cast_eq_iff]
      decide +kernel
    push_cast at this
    linear_combination this
  · refine .inr ?_
    intro h
    have : ((2 * baseV : Nat) : F) = ((0 : Nat) : F) := by
      push_cast
      simp only [zero_mul, sub_zero] at h
      linear_combination h
    rw [cast_eq_iff] at this
    revert this
    decide +kernel

/-- The base point. -/
def base : Curve25519 := Point.some (9 : F) (baseV : F) base_nonsingular

theorem uCoord_base : uCoord base = 9 := rfl

instance : DecidableEq F := inferInstance

/-- The ladder in the field. -/
theorem step_rep (x1 : Nat) (l : Ladder) (P Q R : Curve25519) (hP : uCoord P = ((x1 : Nat) : F)) (h0 : uCoord P ≠ 0)
    (hQ : Rep (l.x2 : F) (l.z2 : F) Q) (hR : Rep (l.x3 : F) (l.z3 : F) R) (hd : R - Q = P ∨ Q - R = P) :
    Rep ((step x1 l).x2 : F) ((step x1 l).z2 : F) (Q + Q) ∧ Rep ((step x1 l).x3 : F) ((step x1 l).z3 : F) (Q + R) := by
  have h1 := rep_double two_ne A_ne hQ
  have h2 := rep_add two_ne A_ne hQ hR h0 hd
  rw [hP] at h2
  constructor
  · have e1 : ((step x1 l).x2 : F) = ((l.x2 : F) ^ 2 - (l.z2 : F) ^ 2) ^ 2 := by
      simp only [step]
      push_cast [cast_sub', ZMod.natCast_mod]
      ring
    have e2 : ((step x1 l).z2 : F) = 4 * l.x2 * l.z2 * ((l.x2 : F) ^ 2 + 486662 * l.x2 * l.z2 + (l.z2 : F) ^ 2) := by
      simp only [step]
      push_cast [cast_sub', ZMod.natCast_mod]
      ring
    rw [e1, e2]
    exact h1
  · have e1 : ((step x1 l).x3 : F) = 4 * ((l.x2 : F) * l.x3 - l.z2 * l.z3) ^ 2 := by
      simp only [step]
      push_cast [cast_sub', ZMod.natCast_mod]
      ring
    have e2 : ((step x1 l).z3 : F) = (x1 : F) * (4 * ((l.x3 : F) * l.z2 - l.x2 * l.z3) ^ 2) := by
      simp only [step]
      push_cast [cast_sub', ZMod.natCast_mod]
      ring
    rw [e1, e2]
    exact h2

theorem div_pow_testBit (k t : Nat) : k / 2 ^ t = 2 * (k / 2 ^ (t + 1)) + if k.testBit t then 1 else 0 := by
  rw [Nat.testBit_eq_decide_div_mod_eq, Nat.pow_succ, ← Nat.div_div_eq_div_mul]
  by_cases h : k / 2 ^ t % 2 = 1
  · rw [if_pos (by simpa using h)]; omega
  · rw [if_neg (by simpa using h)]; omega

theorem loop_rep (k x1 : Nat) (P : Curve25519) (hP : uCoord P = ((x1 : Nat) : F)) (h0 : uCoord P ≠ 0) :
    ∀ (t : Nat) (l : Ladder) (swap : Bool),
      Rep ((cswap swap l).x2 : F) ((cswap swap l).z2 : F) ((k / 2 ^ t) • P) →
      Rep ((cswap swap l).x3 : F) ((cswap swap l).z3 : F) ((k / 2 ^ t + 1) • P) →
      Rep ((loop k x1 t l swap).x2 : F) ((loop k x1 t l swap).z2 : F) (k • P) := by
  intro t
  induction t with
  | zero =>
    intro l swap h _
    rw [pow_zero, Nat.div_one] at h
    exact h
  | succ t ih =>
    intro l swap h h'
    rw [loop]
    have hc : cswap (swap != k.testBit t) l = cswap (k.testBit t) (cswap swap l) := by
      cases swap <;> cases k.testBit t <;> rfl
    rw [hc]
    generalize cswap swap l = m at h h'
    have hn := div_pow_testBit k t
    generalize k / 2 ^ (t + 1) = n at h h' hn
    cases hb : k.testBit t with
    | false =>
      rw [hb, if_neg (by decide), Nat.add_zero] at hn
      have hs := step_rep x1 m P (n • P) ((n + 1) • P) hP h0 h h' (.inl (by rw [add_smul, one_smul, add_sub_cancel_left]))
      rw [← add_smul, ← add_smul] at hs
      refine ih _ false ?_ ?_
      · rw [hn, two_mul]; exact hs.1
      · rw [hn, two_mul, Nat.add_assoc]; exact hs.2
    | true =>
      rw [hb, if_pos rfl] at hn
      have hs := step_rep x1 (cswap true m) P ((n + 1) • P) (n • P) hP h0 h' h (.inr (by rw [add_smul, one_smul, add_sub_cancel_left]))
      rw [← add_smul, ← add_smul] at hs
      refine ih _ true ?_ ?_
      · rw [hn, two_mul, Nat.add_right_comm]; exact hs.2
      · rw [hn, show 2 * n + 1 + 1 = n + 1 + (n + 1) by omega]; exact hs.1

/-- The ladder multiplies. -/
theorem ladder_rep (k x1 : Nat) (hk : k < 2 ^ 255) (P : Curve25519) (hP : uCoord P = ((x1 : Nat) : F)) (h0 : uCoord P ≠ 0) :
    Rep ((loop k x1 255 ⟨1, 0, x1, 1⟩ false).x2 : F) ((loop k x1 255 ⟨1, 0, x1, 1⟩ false).z2 : F) (k • P) := by
  refine loop_rep k x1 P hP h0 255 _ false ?_ ?_
  · rw [Nat.div_eq_of_lt hk, zero_nsmul]
    exact ⟨Nat.cast_zero, by rw [show (cswap false ⟨1, 0, x1, 1⟩).x2 = 1 from rfl, Nat.cast_one]; exact one_ne_zero⟩
  · rw [Nat.div_eq_of_lt hk, zero_add, one_smul]
    have := rep_one P (by rintro rfl; exact h0 rfl)
    rw [hP] at this
    rw [show (cswap false ⟨1, 0, x1, 1⟩).x3 = x1 from rfl, show (cswap false ⟨1, 0, x1, 1⟩).z3 = 1 from rfl, Nat.cast_one]
    exact this

/-- A scalar is eight times a number of 252 bits. -/
theorem scalar_eq (k : Bytes) : ∃ m, decodeScalar k = 8 * m ∧ 2 ^ 251 ≤ m ∧ m < 2 ^ 252 := by
  unfold decodeScalar
  have : leVal k % 2 ^ 254 < 2 ^ 254 := Nat.mod_lt _ (by norm_num)
  exact ⟨leVal k % 2 ^ 254 / 8 + 2 ^ 251, by omega, by omega, by omega⟩

theorem scalar_lt (k : Bytes) : decodeScalar k < 2 ^ 255 := by
  obtain ⟨m, h, -, h'⟩ := scalar_eq k
  omega

/-- The function on a u-coordinate of the curve. -/
theorem x25519_eq (k u : Bytes) (P : Curve25519) (hP : uCoord P = ((decodeU u : Nat) : F)) (h0 : uCoord P ≠ 0) :
    x25519 k u = leBytes 32 (uCoord (decodeScalar k • P)).val := by
  unfold x25519
  have h := rep_div (ladder_rep (decodeScalar k) (decodeU u) (scalar_lt k) P hP h0)
  simp only
  rw [← h, ← cast_inv', ← Nat.cast_mul, ZMod.val_natCast]

theorem uCoord_base_ne : uCoord base ≠ 0 := by
  rw [uCoord_base]
  intro h
  have : ((9 : Nat) : F) = ((0 : Nat) : F) := by exact_mod_cast h
  rw [cast_eq_iff] at this
  revert this
  decide +kernel

theorem uCoord_base' : uCoord base = ((9 : Nat) : F) := by rw [uCoord_base, Nat.cast_ofNat]

theorem q_lt : q < 2 ^ 255 := by decide +kernel

theorem ladder_order : (loop q 9 255 ⟨1, 0, 9, 1⟩ false).z2 = 0 := by decide +kernel

theorem smul_zero_of (k x1 : Nat) (hk : k < 2 ^ 255) (hx : uCoord base = ((x1 : Nat) : F))
    (hz : (loop k x1 255 ⟨1, 0, x1, 1⟩ false).z2 = 0) : k • base = 0 := by
  have h := ladder_rep k x1 hk base hx uCoord_base_ne
  exact (rep_zero h).mpr (by rw [hz, Nat.cast_zero])

/-- The base point has the order of RFC 7748. -/
theorem base_order : q • base = 0 := smul_zero_of q 9 q_lt uCoord_base' ladder_order

theorem base_ne : base ≠ 0 := Point.some_ne_zero _

theorem smul_base (n : Nat) : n • base = 0 ↔ q ∣ n := by
  have h : addOrderOf base = q := by
    have : Fact q.Prime := ⟨q_prime⟩
    exact addOrderOf_eq_prime base_order base_ne
  rw [← h, addOrderOf_dvd_iff_nsmul_eq_zero]

theorem smul_base_eq (m n : Nat) : m • base = n • base ↔ m ≡ n [MOD q] := by
  have h : addOrderOf base = q := by
    have : Fact q.Prime := ⟨q_prime⟩
    exact addOrderOf_eq_prime base_order base_ne
  rw [nsmul_eq_nsmul_iff_modEq, h]

/-- Only multiples of the order have u-coordinate 0. -/
theorem uCoord_smul (n : Nat) : uCoord (n • base) = 0 ↔ q ∣ n := by
  constructor
  · intro h
    cases hp : n • base with
    | zero => exact (smul_base n).mp hp
    | some u v hn =>
      rw [hp] at h
      have hu : u = 0 := h
      subst hu
      have he := equation hn
      have hv : v = 0 := by
        have : v ^ 2 = 0 := by rw [he]; ring
        exact pow_eq_zero_iff (by norm_num) |>.mp this
      have h2 : (2 * n) • base = 0 := by
        rw [two_mul, add_smul, hp]
        exact Point.add_self_of_Y_eq (by rw [negY_eq, hv, neg_zero])
      rw [smul_base] at h2
      rcases (Nat.Prime.dvd_mul q_prime).mp h2 with h2 | h2
      · exact absurd (Nat.le_of_dvd (by norm_num) h2) (by decide +kernel)
      · exact h2
  · intro h
    rw [(smul_base n).mpr h]
    rfl

theorem scalar_ndvd (k : Bytes) : ¬ q ∣ decodeScalar k := by
  obtain ⟨m, h, h1, h2⟩ := scalar_eq k
  rw [h]
  intro hd
  rcases (Nat.Prime.dvd_mul q_prime).mp hd with hd | hd
  · exact absurd (Nat.le_of_dvd (by norm_num) hd) (by decide +kernel)
  · have h3 := Nat.le_of_dvd (by omega) hd
    have : 2 ^ 252 ≤ q := by decide +kernel
    omega

theorem val_lt (x : F) : x.val < 2 ^ 255 := by
  have h1 : x.val < p := ZMod.val_lt x
  have h2 : p < 2 ^ 255 := by decide +kernel
  omega

theorem decodeU_leBytes (x : F) : ((decodeU (leBytes 32 x.val) : Nat) : F) = x := by
  have h := val_lt x
  unfold decodeU
  rw [leVal_leBytes (by rw [show 256 ^ 32 = 2 ^ 256 by norm_num]; omega), Nat.mod_eq_of_lt h, ZMod.natCast_zmod_val]

/-- A public key is the u-coordinate of a multiple of the base point. -/
theorem publicKey_eq (s : Bytes) : publicKey s = leBytes 32 (uCoord (decodeScalar s • base)).val := by
  have h9 : decodeU (leBytes 32 9) = 9 := by decide +kernel
  exact x25519_eq s _ base (by rw [h9, uCoord_base']) uCoord_base_ne

/-- The shared secret. -/
theorem shared_eq (s t : Bytes) : x25519 s (publicKey t) =
    leBytes 32 (uCoord ((decodeScalar s * decodeScalar t) • base)).val := by
  rw [publicKey_eq t, mul_smul]
  exact x25519_eq s _ _ (decodeU_leBytes _).symm ((uCoord_smul _).not.mpr (scalar_ndvd t))

theorem leBytes_injective {x y : F} (h : leBytes 32 x.val = leBytes 32 y.val) : x = y := by
  have h1 := val_lt x
  have h2 := val_lt y
  have h3 := congrArg leVal h
  have e : 256 ^ 32 = 2 ^ 256 := by norm_num
  rw [leVal_leBytes (by omega), leVal_leBytes (by omega)] at h3
  exact ZMod.val_injective _ h3

theorem shared_ne (s t : Bytes) : x25519 s (publicKey t) ≠ List.replicate 32 0 := by
  rw [shared_eq]
  intro h
  have h0 : List.replicate 32 0 = leBytes 32 (0 : F).val := by rw [ZMod.val_zero]; decide
  rw [h0] at h
  have := (uCoord_smul _).mp (leBytes_injective h)
  rcases (Nat.Prime.dvd_mul q_prime).mp this with h | h
  · exact scalar_ndvd s h
  · exact scalar_ndvd t h

theorem uCoord_eq {P Q : Curve25519} (hP : P ≠ 0) (hQ : Q ≠ 0) : uCoord P = uCoord Q ↔ P = Q ∨ P = -Q := by
  cases P with
  | zero => exact absurd rfl hP
  | some u v h =>
    cases Q with
    | zero => exact absurd rfl hQ
    | some u' v' h' => exact Point.X_eq_iff

/-- Two secrets have the same public key iff their scalars are the same or opposite. -/
theorem publicKey_iff (s t : Bytes) : publicKey s = publicKey t ↔
    decodeScalar s = decodeScalar t ∨ decodeScalar s + decodeScalar t = 8 * q := by
  rw [publicKey_eq, publicKey_eq]
  have hs := (smul_base _).not.mpr (scalar_ndvd s)
  have ht := (smul_base _).not.mpr (scalar_ndvd t)
  rw [show (leBytes 32 (uCoord (decodeScalar s • base)).val = leBytes 32 (uCoord (decodeScalar t • base)).val) ↔
    uCoord (decodeScalar s • base) = uCoord (decodeScalar t • base) from ⟨leBytes_injective, fun h => by rw [h]⟩, uCoord_eq hs ht,
    eq_neg_iff_add_eq_zero, ← add_smul, smul_base, smul_base_eq]
  obtain ⟨m, h1, h2, h3⟩ := scalar_eq s
  obtain ⟨n, g1, g2, g3⟩ := scalar_eq t
  have hq : q = 2 ^ 252 + 27742317777372353535851937790883648493 := rfl
  have h8 : Nat.Coprime q 8 := by decide +kernel
  refine or_congr ⟨fun h => ?_, fun h => by rw [h]⟩ ⟨fun h => ?_, fun h => by rw [h]; exact ⟨8, Nat.mul_comm _ _⟩⟩
  · rw [h1, g1] at h
    have h := Nat.ModEq.cancel_left_of_coprime h8 h
    have h := Nat.ModEq.eq_of_lt_of_lt h (by omega) (by omega)
    omega
  · rw [h1, g1, ← Nat.mul_add] at h
    obtain ⟨c, hc⟩ := Nat.Coprime.dvd_of_dvd_mul_left h8 h
    have hc1 : c = 1 := by
      have : c ≠ 0 := by rintro rfl; omega
      have : c < 2 := by
        by_contra hc2
        have := Nat.mul_le_mul_left q (show 2 ≤ c by omega)
        omega
      omega
    rw [hc1] at hc
    omega

end Verif.X25519
