import Verif.Concrete.Ed25519
import Verif.Concrete.Edwards
import Mathlib.GroupTheory.OrderOfElement

/-
What the functions of `Verif/Concrete/Ed25519.lean` compute, in the group of points of the curve; that every signature
made is accepted; that no other second half of it is.
-/

namespace Verif.Ed25519
open Blake3 (leVal leBytes leBytes_length)
open Sha2 (sha512)
open Edwards (Point Complete)

/-- The field. -/
abbrev F := ZMod p

/-- The curve constant in the field. -/
def D : F := (d : F)

theorem cast_powMod {a k : Nat} (h : k < 2 ^ 256) : ((powMod p 256 a k : Nat) : F) = (a : F) ^ k := by
  rw [powMod_eq h, ZMod.natCast_mod, Nat.cast_pow]

theorem cast_sub' (a b : Nat) : ((sub a b : Nat) : F) = (a : F) - (b : F) := by
  have hp : 0 < p := p_prime.pos
  unfold sub
  rw [ZMod.natCast_mod, Nat.cast_add, Nat.cast_sub (Nat.le_of_lt (Nat.mod_lt b hp)), ZMod.natCast_mod,
    ZMod.natCast_self]
  ring

theorem p_lt : p < 2 ^ 256 := by decide +kernel

theorem cast_inv' (x : Nat) : ((inv x : Nat) : F) = (x : F)⁻¹ := by
  unfold inv
  rw [cast_powMod (by have := p_lt; omega)]
  by_cases h : (x : F) = 0
  · rw [h, inv_zero, zero_pow]
    decide +kernel
  · apply eq_inv_of_mul_eq_one_left
    rw [← pow_succ]
    have : p - 2 + 1 = p - 1 := by decide +kernel
    rw [this]
    exact ZMod.pow_card_sub_one_eq_one h

theorem eq_zero_of_dvd {n : Nat} (h : n % p = 0) : (n : F) = 0 := by
  rw [ZMod.natCast_eq_zero_iff]
  exact Nat.dvd_of_mod_eq_zero h

theorem cast_eq_iff (a b : Nat) : (a : F) = (b : F) ↔ a % p = b % p := ZMod.natCast_eq_natCast_iff' a b p

theorem two_ne : (2 : F) ≠ 0 := by
  intro h
  have : ((2 : Nat) : F) = ((0 : Nat) : F) := by exact_mod_cast h
  rw [cast_eq_iff] at this
  revert this
  decide +kernel

theorem neg_one_eq : (-1 : F) = ((p - 1 : Nat) : F) := by
  rw [Nat.cast_sub p_prime.one_le, ZMod.natCast_self]
  simp

theorem sqrtM1_sq : (sqrtM1 : F) * (sqrtM1 : F) = -1 := by
  rw [neg_one_eq, ← Nat.cast_mul, cast_eq_iff]
  decide +kernel

instance complete : Complete D where
  two := two_ne
  neg_one := ⟨(sqrtM1 : F), sqrtM1_sq⟩
  nonsq s h := by
    have hd : (d : F) ^ ((p - 1) / 2) = -1 := by
      rw [← cast_powMod (by have := p_lt; omega), neg_one_eq, cast_eq_iff]
      decide +kernel
    have hs : s ≠ 0 := by
      rintro rfl
      have h0 : (d : F) = 0 := by rw [← show D = (d : F) from rfl, ← h]; simp
      rw [h0, zero_pow (by decide +kernel)] at hd
      have : (2 : F) = 0 := by linear_combination 2 * hd
      exact two_ne this
    have h1 : (d : F) ^ ((p - 1) / 2) = 1 := by
      rw [show (d : F) = D from rfl, ← h, ← pow_two, ← pow_mul]
      rw [show 2 * ((p - 1) / 2) = p - 1 by decide +kernel]
      exact ZMod.pow_card_sub_one_eq_one hs
    rw [h1] at hd
    have : (2 : F) = 0 := by linear_combination hd
    exact two_ne this

/-- The extended coordinates stand for the point. -/
structure Rep (Q : Ext) (g : Point D) : Prop where
  z : (Q.Z : F) ≠ 0
  x : (Q.X : F) = g.x * Q.Z
  y : (Q.Y : F) = g.y * Q.Z
  t : (Q.T : F) = g.x * g.y * Q.Z

theorem rep_neutral : Rep neutral 0 where
  z := by simp [neutral]
  x := by simp [neutral, Edwards.zero_x]
  y := by simp [neutral, Edwards.zero_y]
  t := by simp [neutral, Edwards.zero_x]

theorem rep_add {P Q : Ext} {g h : Point D} (hP : Rep P g) (hQ : Rep Q h) : Rep (pointAdd P Q) (g + h) := by
  have n1 := Edwards.plus g h
  have n2 := Edwards.minus g h
  have hd : (d : F) = D := rfl
  have eE : ((sub ((P.Y + P.X) * (Q.Y + Q.X) % p) (sub P.Y P.X * sub Q.Y Q.X % p) : Nat) : F) =
      2 * P.Z * Q.Z * (g.x * h.y + g.y * h.x) := by
    simp only [cast_sub', ZMod.natCast_mod, Nat.cast_mul, Nat.cast_add, hP.x, hP.y, hQ.x, hQ.y]
    ring
  have eH : (((P.Y + P.X) * (Q.Y + Q.X) % p + sub P.Y P.X * sub Q.Y Q.X % p : Nat) : F) =
      2 * P.Z * Q.Z * (g.y * h.y + g.x * h.x) := by
    simp only [cast_sub', ZMod.natCast_mod, Nat.cast_mul, Nat.cast_add, hP.x, hP.y, hQ.x, hQ.y]
    ring
  have eF : ((sub (2 * P.Z * Q.Z % p) (2 * P.T * Q.T * d % p) : Nat) : F) =
      2 * P.Z * Q.Z * (1 - D * g.x * h.x * g.y * h.y) := by
    simp only [cast_sub', ZMod.natCast_mod, Nat.cast_mul, Nat.cast_ofNat, hP.t, hQ.t, hd]
    ring
  have eG : ((2 * P.Z * Q.Z % p + 2 * P.T * Q.T * d % p : Nat) : F) =
      2 * P.Z * Q.Z * (1 + D * g.x * h.x * g.y * h.y) := by
    simp only [ZMod.natCast_mod, Nat.cast_mul, Nat.cast_ofNat, Nat.cast_add, hP.t, hQ.t, hd]
    ring
  have hz : (2 * P.Z * Q.Z : F) ≠ 0 := mul_ne_zero (mul_ne_zero two_ne hP.z) hQ.z
  have gx : (g + h).x * (1 + D * g.x * h.x * g.y * h.y) = g.x * h.y + g.y * h.x := by
    rw [Edwards.add_x, div_mul_cancel₀ _ n1]
  have gy : (g + h).y * (1 - D * g.x * h.x * g.y * h.y) = g.y * h.y + g.x * h.x := by
    rw [Edwards.add_y, div_mul_cancel₀ _ n2]
  unfold pointAdd
  refine ⟨?_, ?_, ?_, ?_⟩ <;> dsimp only <;> simp only [ZMod.natCast_mod, Nat.cast_mul, eE, eF, eG, eH]
  · exact mul_ne_zero (mul_ne_zero hz n2) (mul_ne_zero hz n1)
  · linear_combination -(2 * P.Z * Q.Z : F) ^ 2 * (1 - D * g.x * h.x * g.y * h.y) * gx
  · linear_combination -(2 * P.Z * Q.Z : F) ^ 2 * (1 + D * g.x * h.x * g.y * h.y) * gy
  · linear_combination -(2 * P.Z * Q.Z : F) ^ 2 * (g.y * h.y + g.x * h.x) * gx -
      (2 * P.Z * Q.Z : F) ^ 2 * ((g + h).x * (1 + D * g.x * h.x * g.y * h.y)) * gy

theorem rep_mulAux : ∀ {n s : Nat} {P Q : Ext} {g h : Point D}, s < 2 ^ n → Rep P g → Rep Q h →
    Rep (pointMulAux n s P Q) (h + s • g)
  | 0, s, P, Q, g, h, hs, _, hQ => by
    have : s = 0 := by simpa using hs
    rw [this, zero_nsmul, add_zero]
    exact hQ
  | n + 1, s, P, Q, g, h, hs, hP, hQ => by
    have hs2 : s / 2 < 2 ^ n := by rw [Nat.pow_succ] at hs; omega
    unfold pointMulAux
    rcases Nat.mod_two_eq_zero_or_one s with e | e
    · rw [if_neg (by omega)]
      have := rep_mulAux hs2 (rep_add hP hP) hQ
      rwa [← two_nsmul, ← mul_nsmul', show s / 2 * 2 = s by omega] at this
    · rw [if_pos e]
      have := rep_mulAux hs2 (rep_add hP hP) (rep_add hQ hP)
      rwa [← two_nsmul, ← mul_nsmul', add_assoc, ← succ_nsmul', show s / 2 * 2 + 1 = s by omega] at this

theorem rep_mul {s : Nat} {P : Ext} {g : Point D} (hs : s < 2 ^ 256) (hP : Rep P g) : Rep (pointMul s P) (s • g) := by
  have := rep_mulAux hs hP rep_neutral
  rwa [zero_add] at this

/-- `point_equal` decides equality of points. -/
theorem pointEqual_iff {P Q : Ext} {g h : Point D} (hP : Rep P g) (hQ : Rep Q h) : pointEqual P Q = true ↔ g = h := by
  unfold pointEqual
  rw [Bool.and_eq_true, decide_eq_true_eq, decide_eq_true_eq, ← cast_eq_iff, ← cast_eq_iff]
  simp only [Nat.cast_mul, hP.x, hP.y, hQ.x, hQ.y]
  constructor
  · rintro ⟨h1, h2⟩
    have hz : (P.Z * Q.Z : F) ≠ 0 := mul_ne_zero hP.z hQ.z
    ext
    · apply mul_right_cancel₀ hz
      linear_combination h1
    · apply mul_right_cancel₀ hz
      linear_combination h2
  · rintro rfl
    constructor <;> ring

/-! ### Encoding -/

theorem leVal_lt : ∀ bs : Bytes, leVal bs < 256 ^ bs.length
  | [] => by simp [leVal]
  | b :: bs => by
    have h1 := leVal_lt bs
    have h2 : b.toNat < 256 := b.toNat_lt
    rw [leVal, List.length_cons, pow_succ]
    omega

theorem leVal_leBytes : ∀ {n x : Nat}, x < 256 ^ n → leVal (leBytes n x) = x
  | 0, x, h => by
    have : x = 0 := by simpa using h
    rw [this]; rfl
  | n + 1, x, h => by
    rw [leBytes, leVal, leVal_leBytes (by rw [pow_succ] at h; omega), byte_toNat_of_lt (Nat.mod_lt _ (by decide))]
    omega

theorem leBytes_leVal : ∀ bs : Bytes, leBytes bs.length (leVal bs) = bs
  | [] => rfl
  | b :: bs => by
    have h2 : b.toNat < 256 := b.toNat_lt
    rw [List.length_cons, leVal, leBytes, show (b.toNat + 256 * leVal bs) / 256 = leVal bs by omega, leBytes_leVal bs,
      show (b.toNat + 256 * leVal bs) % 256 = b.toNat by omega]
    congr 1
    apply UInt8.toNat_inj.mp
    exact byte_toNat_of_lt h2

theorem leVal_injective {a b : Bytes} (hl : a.length = b.length) (h : leVal a = leVal b) : a = b := by
  rw [← leBytes_leVal a, ← leBytes_leVal b, hl, h]

/-- The encoding of a point (RFC 8032, section 5.1.2): y, and the parity of x in the highest bit. -/
def enc (g : Point D) : Bytes := leBytes 32 (g.y.val + 2 ^ 255 * (g.x.val % 2))

theorem enc_length (g : Point D) : (enc g).length = 32 := leBytes_length _ _

theorem p_lt' : p < 2 ^ 255 := by decide +kernel

theorem val_lt' (x : F) : x.val < p := ZMod.val_lt x

theorem leVal_enc (g : Point D) : leVal (enc g) = g.y.val + 2 ^ 255 * (g.x.val % 2) := by
  apply leVal_leBytes
  have := val_lt' g.y
  have := p_lt'
  have : (256 : Nat) ^ 32 = 2 ^ 255 * 2 := by decide +kernel
  omega

theorem pointCompress_eq {Q : Ext} {g : Point D} (h : Rep Q g) : pointCompress Q = enc g := by
  have key : ∀ {A : Nat} {a : F}, (A : F) = a * Q.Z → A * inv Q.Z % p = a.val := by
    intro A a e
    rw [← ZMod.val_natCast, Nat.cast_mul, cast_inv', e, mul_assoc, mul_inv_cancel₀ h.z, mul_one]
  unfold pointCompress
  dsimp only
  rw [key h.x, key h.y, enc]

theorem p_odd : p % 2 = 1 := by decide +kernel

theorem powMod_lt (a k : Nat) : powMod p 256 a k < p := by
  have hp : 0 < p := p_prime.pos
  show powMod p (255 + 1) a k < p
  unfold powMod
  dsimp only
  split
  · exact Nat.mod_lt _ hp
  · split
    · exact Nat.mod_lt _ hp
    · generalize a * a % p = a'
      generalize k / 2 = k'
      generalize 255 = n
      induction n generalizing a' k' with
      | zero => exact Nat.mod_lt _ hp
      | succ n ih =>
        unfold powMod
        dsimp only
        split
        · exact Nat.mod_lt _ hp
        · split
          · exact Nat.mod_lt _ hp
          · exact ih _ _

/-- The only square roots are the two known ones. -/
theorem val_neg {x : F} (h : x ≠ 0) : (-x).val = p - x.val := by
  rw [ZMod.neg_val, if_neg h]

/-- 1 + d y² is not zero. -/
theorem denominator_ne (y : F) : D * y * y + 1 ≠ 0 := by
  intro h
  by_cases hy : y = 0
  · rw [hy] at h; simp at h
  · obtain ⟨i, hi⟩ := Complete.neg_one (d := D)
    apply Complete.nonsq (d := D) (i * y⁻¹)
    have hyy : y * y ≠ 0 := mul_ne_zero hy hy
    apply mul_right_cancel₀ hyy
    have : y⁻¹ * y = 1 := inv_mul_cancel₀ hy
    linear_combination (i * i * (y⁻¹ * y + 1)) * this + hi - h

/-- The square of x in terms of y. -/
theorem on_iff (x y : F) : y ^ 2 - x ^ 2 = 1 + D * x ^ 2 * y ^ 2 ↔ x * x = (y * y - 1) * (D * y * y + 1)⁻¹ := by
  rw [eq_mul_inv_iff_mul_eq₀ (denominator_ne y)]
  constructor <;> intro h <;> linear_combination -h

/-- A candidate for the square root, up to a factor of the square root of -1. -/
theorem sqrt_candidate (c : F) : ((c * c) ^ ((p + 3) / 8)) * ((c * c) ^ ((p + 3) / 8)) = c * c ∨
    ((c * c) ^ ((p + 3) / 8)) * ((c * c) ^ ((p + 3) / 8)) = -(c * c) := by
  have e : ((c * c) ^ ((p + 3) / 8)) * ((c * c) ^ ((p + 3) / 8)) = c ^ ((p - 1) / 2) * (c * c) := by
    rw [← pow_two c, ← pow_mul, ← pow_add, ← pow_add]
    congr 1
  rw [e]
  by_cases hc : c = 0
  · left; rw [hc]; simp
  · have : c ^ ((p - 1) / 2) * c ^ ((p - 1) / 2) = 1 := by
      rw [← pow_add, show (p - 1) / 2 + (p - 1) / 2 = p - 1 by decide +kernel]
      exact ZMod.pow_card_sub_one_eq_one hc
    rcases mul_self_eq_one_iff.mp this with h | h
    · left; rw [h, one_mul]
    · right; rw [h, neg_one_mul]

/-- The number whose square root is sought. -/
theorem x2_cast (y : Nat) : ((sub (y * y) 1 * inv (d * y * y + 1) % p : Nat) : F) =
    ((y : F) * y - 1) * (D * y * y + 1)⁻¹ := by
  rw [ZMod.natCast_mod, Nat.cast_mul, cast_sub', cast_inv']
  simp only [Nat.cast_mul, Nat.cast_add, Nat.cast_one]
  rfl

/-- `recover_x` finds the one x of the given parity. -/
theorem recoverX_iff {y b x : Nat} (hb : b ≤ 1) : recoverX y b = some x ↔
    y < p ∧ x < p ∧ x % 2 = b ∧ (y : F) ^ 2 - (x : F) ^ 2 = 1 + D * (x : F) ^ 2 * (y : F) ^ 2 := by
  have hp : 0 < p := p_prime.pos
  rw [on_iff, ← x2_cast]
  unfold recoverX
  by_cases hy : y ≥ p
  · rw [if_pos hy]
    exact ⟨fun h => (by cases h), fun h => absurd h.1 (by omega)⟩
  rw [if_neg hy]
  dsimp only
  have hx2 : sub (y * y) 1 * inv (d * y * y + 1) % p < p := Nat.mod_lt _ hp
  generalize sub (y * y) 1 * inv (d * y * y + 1) % p = x2 at hx2
  have sq : ∀ a : Nat, (a : F) * a = x2 ↔ a * a % p = x2 := by
    intro a
    rw [← Nat.cast_mul, cast_eq_iff, Nat.mod_eq_of_lt hx2]
  have small : ∀ {a : Nat}, a < p → (a : F) = 0 → a = 0 := by
    intro a ha h0
    rw [← Nat.cast_zero, cast_eq_iff, Nat.mod_eq_of_lt ha, Nat.mod_eq_of_lt hp] at h0
    exact h0
  by_cases h0 : x2 = 0
  · rw [if_pos h0]
    subst h0
    have e0 : ∀ a : Nat, a < p → (a : F) * a = ((0 : Nat) : F) → a = 0 := by
      intro a ha h
      rw [Nat.cast_zero] at h
      exact small ha (mul_self_eq_zero.mp h)
    by_cases h1 : b = 1
    · rw [if_pos h1]
      refine ⟨fun h => (by cases h), fun ⟨_, h2, h3, h4⟩ => ?_⟩
      have := e0 x h2 h4
      omega
    · rw [if_neg h1]
      refine ⟨fun h => ?_, fun ⟨_, h2, h3, h4⟩ => ?_⟩
      · cases h
        exact ⟨by omega, hp, by omega, by simp⟩
      · rw [e0 x h2 h4]
  rw [if_neg h0]
  have hx2F : (x2 : F) ≠ 0 := fun h => h0 (small hx2 h)
  -- the candidate
  have hc : ∀ c : Nat, c < p → (c : F) * c = x2 →
      (if c % 2 = b then c else p - c) < p ∧ (if c % 2 = b then c else p - c) % 2 = b ∧
        (((if c % 2 = b then c else p - c : Nat) : F)) * ((if c % 2 = b then c else p - c : Nat) : F) = x2 := by
    intro c hcp hcs
    have hc0 : c ≠ 0 := by
      rintro rfl
      rw [Nat.cast_zero, zero_mul] at hcs
      exact hx2F hcs.symm
    have := p_odd
    by_cases h : c % 2 = b
    · rw [if_pos h]; exact ⟨hcp, h, hcs⟩
    · rw [if_neg h]
      refine ⟨by omega, by omega, ?_⟩
      rw [Nat.cast_sub (Nat.le_of_lt hcp), ZMod.natCast_self, zero_sub, neg_mul_neg]
      exact hcs
  have uniq : ∀ a c : Nat, a < p → c < p → a % 2 = c % 2 → (a : F) * a = x2 → (c : F) * c = x2 → a = c := by
    intro a c ha hcp hpar h1 h2
    rcases mul_self_eq_mul_self_iff.mp (h1.trans h2.symm) with e | e
    · rw [cast_eq_iff, Nat.mod_eq_of_lt ha, Nat.mod_eq_of_lt hcp] at e
      exact e
    · exfalso
      have : ((a + c : Nat) : F) = ((0 : Nat) : F) := by rw [Nat.cast_add, e, Nat.cast_zero]; ring
      rw [cast_eq_iff, Nat.zero_mod] at this
      have hdvd := Nat.dvd_of_mod_eq_zero this
      have ho := p_odd
      obtain ⟨k, hk⟩ := hdvd
      have hk1 : k < 2 := by
        by_contra hge
        have := Nat.mul_le_mul_left p (show 2 ≤ k by omega)
        omega
      have hk0 : k ≠ 0 := by
        rintro rfl
        have : a = 0 := by omega
        rw [this, Nat.cast_zero, zero_mul] at h1
        exact hx2F h1.symm
      have : k = 1 := by omega
      rw [this] at hk
      omega
  generalize hr : (if powMod p 256 x2 ((p + 3) / 8) * powMod p 256 x2 ((p + 3) / 8) % p = x2 then
    powMod p 256 x2 ((p + 3) / 8) else powMod p 256 x2 ((p + 3) / 8) * sqrtM1 % p) = r
  have hrp : r < p := by
    rw [← hr]
    split
    · exact powMod_lt _ _
    · exact Nat.mod_lt _ hp
  by_cases hrr : r * r % p = x2
  · rw [if_pos hrr]
    obtain ⟨h1, h2, h3⟩ := hc r hrp ((sq r).mpr hrr)
    refine ⟨fun h => ?_, fun ⟨_, g2, g3, g4⟩ => ?_⟩
    · cases h
      exact ⟨by omega, h1, h2, h3⟩
    · congr 1
      exact uniq _ _ h1 g2 (by omega) h3 g4
  · rw [if_neg hrr]
    refine ⟨fun h => (by cases h), fun ⟨_, g2, g3, g4⟩ => ?_⟩
    exfalso
    have hcand := sqrt_candidate (x : F)
    have hpow : ((powMod p 256 x2 ((p + 3) / 8) : Nat) : F) = ((x : F) * x) ^ ((p + 3) / 8) := by
      rw [cast_powMod (by have := p_lt'; omega), g4]
    by_cases hf : powMod p 256 x2 ((p + 3) / 8) * powMod p 256 x2 ((p + 3) / 8) % p = x2
    · rw [if_pos hf] at hr
      rw [← hr] at hrr
      exact hrr hf
    · rw [if_neg hf] at hr
      apply hrr
      rw [← sq, ← hr, ZMod.natCast_mod, Nat.cast_mul, hpow]
      rw [← sq, hpow] at hf
      rcases hcand with h | h
      · exact absurd (h.trans g4) hf
      · rw [← g4]
        linear_combination (sqrtM1 : F) * sqrtM1 * h - ((x : F) * x) * sqrtM1_sq

/-- Decoding succeeds exactly on encodings, and finds the point. -/
theorem pointDecompress_enc (g : Point D) : ∃ Q, pointDecompress (enc g) = some Q ∧ Rep Q g := by
  have hy := val_lt' g.y
  have hp2 := p_lt'
  have hm : leVal (enc g) % 2 ^ 255 = g.y.val := by rw [leVal_enc]; omega
  have hd : leVal (enc g) / 2 ^ 255 = g.x.val % 2 := by rw [leVal_enc]; omega
  have hr : recoverX g.y.val (g.x.val % 2) = some g.x.val := by
    rw [recoverX_iff (by omega)]
    refine ⟨hy, val_lt' g.x, rfl, ?_⟩
    rw [ZMod.natCast_zmod_val, ZMod.natCast_zmod_val]
    exact g.on
  refine ⟨⟨g.x.val, g.y.val, 1, g.x.val * g.y.val % p⟩, ?_, ?_, ?_, ?_, ?_⟩
  · unfold pointDecompress
    rw [if_neg (by rw [enc_length]; simp)]
    dsimp only
    rw [hm, hd, hr]
  · simp
  · simp
  · simp
  · simp [ZMod.natCast_mod]

theorem pointDecompress_some {s : Bytes} {Q : Ext} (h : pointDecompress s = some Q) : ∃ g, s = enc g ∧ Rep Q g := by
  unfold pointDecompress at h
  by_cases hl : s.length = 32
  · rw [if_neg (by simpa using hl)] at h
    dsimp only at h
    have hlt := leVal_lt s
    rw [hl, show (256 : Nat) ^ 32 = 2 ^ 255 * 2 by decide +kernel] at hlt
    have hb : leVal s / 2 ^ 255 ≤ 1 := by omega
    cases hr : recoverX (leVal s % 2 ^ 255) (leVal s / 2 ^ 255) with
    | none => rw [hr] at h; cases h
    | some x =>
      rw [hr] at h
      cases h
      obtain ⟨h1, h2, h3, h4⟩ := (recoverX_iff hb).mp hr
      refine ⟨⟨(x : F), ((leVal s % 2 ^ 255 : Nat) : F), h4⟩, ?_, ?_, ?_, ?_, ?_⟩
      · apply leVal_injective (by rw [hl, enc_length])
        rw [leVal_enc]
        dsimp only
        rw [ZMod.val_natCast, ZMod.val_natCast, Nat.mod_eq_of_lt h1, Nat.mod_eq_of_lt h2, h3]
        omega
      · simp
      · simp
      · simp
      · simp [ZMod.natCast_mod]
  · rw [if_pos hl] at h
    cases h

theorem enc_injective {g h : Point D} (e : enc g = enc h) : g = h := by
  obtain ⟨Q, h1, h2⟩ := pointDecompress_enc g
  obtain ⟨Q', h1', h2'⟩ := pointDecompress_enc h
  rw [e, h1'] at h1
  cases h1
  have := pointEqual_iff h2 h2'
  have t := (pointEqual_iff h2 h2).mpr rfl
  exact this.mp t

/-! ### The base point -/

/-- The base point. -/
def B : Point D where
  x := (base.X : F)
  y := (base.Y : F)
  on := by
    have : ((base.Y ^ 2 : Nat) : F) = ((1 + d * base.X ^ 2 * base.Y ^ 2 + base.X ^ 2 : Nat) : F) := by
      rw [cast_eq_iff]
      decide +kernel
    simp only [Nat.cast_add, Nat.cast_mul, Nat.cast_pow, Nat.cast_one] at this
    show _ = 1 + (d : F) * _ * _
    linear_combination this

theorem rep_base : Rep base B where
  z := by simp [base]
  x := by simp [B, base]
  y := by simp [B, base]
  t := by
    have : (base.T : F) = ((base.X * base.Y : Nat) : F) := by
      rw [cast_eq_iff]
      decide +kernel
    rw [this, Nat.cast_mul]
    simp only [B, show base.Z = 1 from rfl, Nat.cast_one, mul_one]

theorem q_B : q • B = 0 :=
  (pointEqual_iff (rep_mul (by decide +kernel) rep_base) rep_neutral).mp (by decide +kernel)

theorem B_ne : B ≠ 0 := fun h =>
  absurd ((pointEqual_iff rep_base rep_neutral).mpr h) (by decide +kernel)

theorem order_B : addOrderOf B = q :=
  haveI : Fact q.Prime := ⟨q_prime⟩
  addOrderOf_eq_prime q_B B_ne

/-! ### Signatures -/

theorem secretScalar_lt (secret : Bytes) : secretScalar secret < 2 ^ 256 := by
  unfold secretScalar
  have : leVal ((sha512 secret).take 32) % 2 ^ 254 < 2 ^ 254 := Nat.mod_lt _ (by decide)
  generalize leVal ((sha512 secret).take 32) % 2 ^ 254 = x at this
  omega

theorem q_lt : q < 2 ^ 256 := by decide +kernel

theorem hashModQ_lt (m : Bytes) : hashModQ m < q := Nat.mod_lt _ q_prime.pos

theorem publicKey_eq (secret : Bytes) : publicKey secret = enc (secretScalar secret • B) :=
  pointCompress_eq (rep_mul (secretScalar_lt secret) rep_base)

theorem publicKey_length (secret : Bytes) : (publicKey secret).length = 32 := by
  rw [publicKey_eq, enc_length]

theorem sign_eq (secret m : Bytes) : ∃ r, r < q ∧ sign secret m =
    enc (r • B) ++ leBytes 32 ((r + hashModQ (enc (r • B) ++ publicKey secret ++ m) * secretScalar secret) % q) := by
  refine ⟨hashModQ (secretPrefix secret ++ m), hashModQ_lt _, ?_⟩
  unfold sign
  dsimp only
  rw [pointCompress_eq (rep_mul (lt_trans (hashModQ_lt _) q_lt) rep_base)]
  rfl

theorem sign_length (secret m : Bytes) : (sign secret m).length = 64 := by
  obtain ⟨r, -, h⟩ := sign_eq secret m
  rw [h, List.length_append, enc_length, leBytes_length]

/-- What verification decides: the equation s B = R + h A between points of the curve. -/
theorem verify_iff (pub m sig : Bytes) : verify pub m sig = true ↔ ∃ A R : Point D, ∃ s, pub = enc A ∧ s < q ∧
    sig = enc R ++ leBytes 32 s ∧ s • B = R + hashModQ (enc R ++ pub ++ m) • A := by
  unfold verify
  constructor
  · intro h
    by_cases hl : pub.length ≠ 32 ∨ sig.length ≠ 64
    · rw [if_pos hl] at h; cases h
    rw [if_neg hl] at h
    simp only [not_or, ne_eq, not_not] at hl
    cases hA : pointDecompress pub with
    | none => rw [hA] at h; cases h
    | some A =>
      cases hR : pointDecompress (sig.take 32) with
      | none => rw [hA, hR] at h; cases h
      | some R =>
        rw [hA, hR] at h
        dsimp only at h
        by_cases hs : leVal (sig.drop 32) ≥ q
        · rw [if_pos hs] at h; cases h
        rw [if_neg hs] at h
        obtain ⟨a, ha, ra⟩ := pointDecompress_some hA
        obtain ⟨r, hr, rr⟩ := pointDecompress_some hR
        have hlen : (sig.drop 32).length = 32 := by rw [List.length_drop, hl.2]
        refine ⟨a, r, leVal (sig.drop 32), ha, by omega, ?_, ?_⟩
        · have hb := leBytes_leVal (sig.drop 32)
          rw [hlen] at hb
          rw [← hr, hb, List.take_append_drop]
        · rw [← hr]
          exact (pointEqual_iff (rep_mul (lt_trans (by omega) q_lt) rep_base)
            (rep_add rr (rep_mul (lt_trans (hashModQ_lt _) q_lt) ra))).mp h
  · rintro ⟨A, R, s, rfl, hs, rfl, e⟩
    rw [if_neg (by simp [enc_length, leBytes_length])]
    have ht : (enc R ++ leBytes 32 s).take 32 = enc R := List.take_left' (enc_length R)
    have hd : (enc R ++ leBytes 32 s).drop 32 = leBytes 32 s := List.drop_left' (enc_length R)
    obtain ⟨QA, h1, h2⟩ := pointDecompress_enc A
    obtain ⟨QR, h3, h4⟩ := pointDecompress_enc R
    rw [ht, hd, h1, h3]
    dsimp only
    have hv : leVal (leBytes 32 s) = s := leVal_leBytes (lt_trans hs (by decide +kernel))
    rw [hv, if_neg (by omega)]
    exact (pointEqual_iff (rep_mul (lt_trans hs q_lt) rep_base)
      (rep_add h4 (rep_mul (lt_trans (hashModQ_lt _) q_lt) h2))).mpr e

/-- Every signature made is accepted. -/
theorem verify_sign (secret m : Bytes) : verify (publicKey secret) m (sign secret m) = true := by
  obtain ⟨r, -, h⟩ := sign_eq secret m
  rw [verify_iff]
  refine ⟨secretScalar secret • B, r • B, _, publicKey_eq secret, Nat.mod_lt _ q_prime.pos, h, ?_⟩
  rw [← mul_nsmul', ← add_nsmul]
  conv => lhs; rw [← order_B, mod_addOrderOf_nsmul]

/-- A second half of a signature other than the accepted one is refused. -/
theorem verify_unique {pub m R s s' : Bytes} (hR : R.length = 32) (h : verify pub m (R ++ s) = true)
    (h' : verify pub m (R ++ s') = true) : s = s' := by
  rw [verify_iff] at h h'
  obtain ⟨A, R1, n, rfl, hn, e1, e2⟩ := h
  obtain ⟨A', R1', n', eA, hn', e1', e2'⟩ := h'
  cases enc_injective eA
  obtain ⟨rfl, rfl⟩ := List.append_inj e1 (by rw [hR, enc_length])
  obtain ⟨eR, rfl⟩ := List.append_inj e1' (by rw [enc_length, enc_length])
  cases enc_injective eR
  have := e2.trans e2'.symm
  rw [nsmul_eq_nsmul_iff_modEq, order_B] at this
  unfold Nat.ModEq at this
  rw [Nat.mod_eq_of_lt hn, Nat.mod_eq_of_lt hn'] at this
  rw [this]

/-- Public keys of secrets generate the group of the base point. -/
theorem order_publicKey (secret : Bytes) : addOrderOf (secretScalar secret • B) = q := by
  have : Fact q.Prime := ⟨q_prime⟩
  apply addOrderOf_eq_prime
  · rw [← mul_nsmul', mul_comm, mul_nsmul', q_B, nsmul_zero]
  · intro h
    have hd : q ∣ secretScalar secret := by
      rw [← order_B]
      exact addOrderOf_dvd_of_nsmul_eq_zero h
    have hx : leVal ((sha512 secret).take 32) % 2 ^ 254 < 2 ^ 254 := Nat.mod_lt _ (by decide)
    unfold secretScalar at hd
    generalize leVal ((sha512 secret).take 32) % 2 ^ 254 = x at hd hx
    have e : x / 8 * 8 + 2 ^ 254 = 8 * (x / 8 + 2 ^ 251) := by omega
    rw [e] at hd
    rcases q_prime.dvd_mul.mp hd with h8 | hk
    · have := Nat.le_of_dvd (by decide) h8
      revert this
      decide +kernel
    · have := Nat.le_of_dvd (by omega) hk
      have : (2 : Nat) ^ 252 ≤ q := by decide +kernel
      omega

/-- The number hashed from a signature, the key and the message. -/
def challenge (pub m sig : Bytes) : Nat := hashModQ (sig.take 32 ++ pub ++ m)

/-- A signature accepted for two messages gives two equal hashes. -/
theorem verify_two {secret m m' sig : Bytes} (h : verify (publicKey secret) m sig = true)
    (h' : verify (publicKey secret) m' sig = true) :
    challenge (publicKey secret) m sig = challenge (publicKey secret) m' sig := by
  rw [verify_iff] at h h'
  obtain ⟨A, R, n, eA, hn, e1, e2⟩ := h
  obtain ⟨A', R', n', eA', hn', e1', e2'⟩ := h'
  have hA : A = secretScalar secret • B := enc_injective (by rw [← eA, publicKey_eq])
  have hA' : A' = secretScalar secret • B := enc_injective (by rw [← eA', publicKey_eq])
  have ht : sig.take 32 = enc R := by rw [e1]; exact List.take_left' (enc_length R)
  obtain ⟨eR, es⟩ := List.append_inj (e1.symm.trans e1') (by rw [enc_length, enc_length])
  cases enc_injective eR
  have hnn : n = n' := by
    have := congrArg leVal es
    rwa [leVal_leBytes (lt_trans hn (by decide +kernel)), leVal_leBytes (lt_trans hn' (by decide +kernel))] at this
  subst hnn
  have e := add_left_cancel (e2.symm.trans e2')
  rw [hA, hA'] at e
  have em : hashModQ (enc R ++ publicKey secret ++ m) ≡ hashModQ (enc R ++ publicKey secret ++ m') [MOD q] := by
    rw [← order_publicKey secret]
    exact nsmul_eq_nsmul_iff_modEq.mp e
  unfold Nat.ModEq at em
  rw [Nat.mod_eq_of_lt (hashModQ_lt _), Nat.mod_eq_of_lt (hashModQ_lt _)] at em
  unfold challenge
  rw [ht]
  exact em

/-- The neutral point as a public key accepts one signature for every message. -/
theorem verify_neutral (m : Bytes) : verify (enc 0) m (enc 0 ++ leBytes 32 0) = true := by
  rw [verify_iff]
  refine ⟨0, 0, 0, rfl, q_prime.pos, rfl, ?_⟩
  rw [zero_nsmul, nsmul_zero, add_zero]

end Verif.Ed25519
