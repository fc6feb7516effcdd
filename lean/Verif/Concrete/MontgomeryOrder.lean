import Verif.Concrete.X25519Laws
import Mathlib.GroupTheory.Index
import Mathlib.Algebra.Field.ZMod
import Mathlib.SetTheory.Cardinal.Finite

/-
The number of points of curve25519, as for the curve of Ed25519 (`Verif/Concrete/CurveOrder.lean`): eight times the order
of the base point; and what the function X25519 gives on u-coordinates of any of its points.
-/

namespace Verif.X25519
open Spec Montgomery WeierstrassCurve.Affine
open Blake3 (leVal leBytes leBytes_length)
open Ed25519 (p q p_prime q_prime F cast_sub' cast_inv' cast_eq_iff leVal_lt leVal_leBytes)

/-- u-coordinate and parity of the other. -/
def sides : Curve25519 → Option (F × Fin 2)
  | .zero => none
  | .some u v _ => some (u, ⟨v.val % 2, Nat.mod_lt _ (by decide)⟩)

theorem p_odd : p % 2 = 1 := by decide +kernel

theorem neg_parity {v : F} (h : v.val % 2 = (-v).val % 2) : v = -v := by
  have hp := p_odd
  by_cases h0 : v = 0
  · rw [h0, neg_zero]
  · exfalso
    have : NeZero v := ⟨h0⟩
    rw [ZMod.val_neg_of_ne_zero] at h
    have hlt : v.val < p := ZMod.val_lt v
    omega

theorem sides_injective : Function.Injective sides := by
  intro P Q e
  cases P with
  | zero =>
    cases Q with
    | zero => rfl
    | some u' v' h' => exact nomatch e
  | some u v h =>
    cases Q with
    | zero => exact nomatch e
    | some u' v' h' =>
      unfold sides at e
      rw [Option.some.injEq, Prod.mk.injEq, Fin.mk.injEq] at e
      obtain ⟨rfl, e2⟩ := e
      have hv : v = v' := by
        have e1 := (equation h).trans (equation h').symm
        rcases sq_eq_sq_iff_eq_or_eq_neg.mp e1 with hv | hv
        · exact hv
        · rw [hv] at e2
          rw [hv]
          exact (neg_parity e2.symm).symm
      subst hv
      rfl

instance : NeZero p := ⟨p_prime.ne_zero⟩

instance : Finite Curve25519 := Finite.of_injective sides sides_injective

theorem card_le : Nat.card Curve25519 ≤ p * 2 + 1 := by
  have h := Nat.card_le_card_of_injective sides sides_injective
  rwa [Finite.card_option, Nat.card_prod, Nat.card_zmod, Nat.card_fin] at h

theorem nonsingular_of (u v : Nat) (h : v ^ 2 % p = (u ^ 3 + 486662 * u ^ 2 + u) % p) (h2 : 2 * v % p ≠ 0) :
    (montgomery (F := F) 486662).Nonsingular (u : F) (v : F) := by
  rw [nonsingular_iff]
  constructor
  · rw [equation_iff]
    have := (cast_eq_iff _ _).mpr h
    push_cast at this
    linear_combination this
  · refine .inr ?_
    intro h
    have : ((2 * v : Nat) : F) = ((0 : Nat) : F) := by
      push_cast
      simp only [zero_mul, sub_zero] at h
      linear_combination h
    rw [cast_eq_iff, Nat.zero_mod] at this
    exact h2 this

/-- The u-coordinate of a point of order eight. -/
def eighthU : Nat := 325606250916557431795983626356110631294008115727848805560023387167927233504
/-- Its other coordinate. -/
def eighthV : Nat := 32026303591712962751241307547882981359278212717910236697706316503764922500307

/-- A point of order eight. -/
def eighth : Curve25519 :=
  Point.some (eighthU : F) (eighthV : F) (nonsingular_of _ _ (by decide +kernel) (by decide +kernel))

theorem uCoord_eighth : uCoord eighth = ((eighthU : Nat) : F) := rfl

theorem uCoord_eighth_ne : uCoord eighth ≠ 0 := by
  rw [uCoord_eighth]
  intro h
  have : ((eighthU : Nat) : F) = ((0 : Nat) : F) := by rw [h, Nat.cast_zero]
  rw [cast_eq_iff] at this
  revert this
  decide +kernel

theorem rep_smul_eighth (k : Nat) (hk : k < 2 ^ 255) :
    Rep ((loop k eighthU 255 ⟨1, 0, eighthU, 1⟩ false).x2 : F) ((loop k eighthU 255 ⟨1, 0, eighthU, 1⟩ false).z2 : F)
      (k • eighth) :=
  ladder_rep k eighthU hk eighth uCoord_eighth uCoord_eighth_ne

theorem smul_eighth_zero (k : Nat) (hk : k < 2 ^ 255) :
    k • eighth = 0 ↔ (loop k eighthU 255 ⟨1, 0, eighthU, 1⟩ false).z2 % p = 0 := by
  rw [rep_zero (rep_smul_eighth k hk)]
  have := cast_eq_iff (loop k eighthU 255 ⟨1, 0, eighthU, 1⟩ false).z2 0
  rw [Nat.cast_zero, Nat.zero_mod] at this
  exact this

theorem eight_eighth : 8 • eighth = 0 := (smul_eighth_zero 8 (by norm_num)).mpr (by decide +kernel)

theorem four_eighth : 4 • eighth ≠ 0 := (smul_eighth_zero 4 (by norm_num)).not.mpr (by decide +kernel)

theorem order_eighth : addOrderOf eighth = 8 :=
  haveI : Fact (Nat.Prime 2) := ⟨Nat.prime_two⟩
  addOrderOf_eq_prime_pow (p := 2) (n := 2) four_eighth eight_eighth

theorem order_base : addOrderOf base = q :=
  haveI : Fact q.Prime := ⟨q_prime⟩
  addOrderOf_eq_prime base_order base_ne

theorem coprime_q_eight : Nat.Coprime q 8 := by decide +kernel

/-- A generator of the group. -/
theorem order_generator : addOrderOf (base + eighth) = q * 8 := by
  have h := (AddCommute.all base eighth).addOrderOf_add_eq_mul_addOrderOf_of_coprime
    (by rw [order_base, order_eighth]; exact coprime_q_eight)
  rwa [order_base, order_eighth] at h

/-- The curve has eight times as many points as the base point generates. -/
theorem card_points : Nat.card Curve25519 = q * 8 := by
  have hd : q * 8 ∣ Nat.card Curve25519 := order_generator ▸ addOrderOf_dvd_natCard _
  obtain ⟨k, hk⟩ := hd
  have hle := card_le
  have hlt : p * 2 + 1 < q * 8 * 2 := by decide +kernel
  have hpos : 0 < Nat.card Curve25519 := Nat.card_pos
  have : k = 1 := by
    rcases k with _ | _ | k
    · omega
    · rfl
    · exfalso
      rw [hk] at hle
      have : q * 8 * 2 ≤ q * 8 * (k + 1 + 1) := Nat.mul_le_mul_left _ (by omega)
      omega
  rw [hk, this, mul_one]

theorem order_dvd (P : Curve25519) : addOrderOf P ∣ q * 8 := card_points ▸ addOrderOf_dvd_natCard P

/-- Every point is a multiple of the generator. -/
theorem generated (P : Curve25519) : ∃ n : Nat, P = n • (base + eighth) := by
  have htop : AddSubgroup.zmultiples (base + eighth) = ⊤ := by
    apply AddSubgroup.eq_top_of_card_eq
    rw [Nat.card_zmultiples, order_generator, card_points]
  have hm : P ∈ AddSubgroup.zmultiples (base + eighth) := by rw [htop]; trivial
  rw [← mem_multiples_iff_mem_zmultiples] at hm
  obtain ⟨n, hn⟩ := AddSubmonoid.mem_multiples_iff _ _ |>.mp hm
  exact ⟨n, hn.symm⟩

/-- The points killed by eight are the multiples of one of them. -/
theorem small_iff (P : Curve25519) : 8 • P = 0 ↔ ∃ k, k < 8 ∧ P = k • eighth := by
  constructor
  · intro h
    obtain ⟨n, rfl⟩ := generated P
    have hd : q * 8 ∣ 8 * n := by
      rw [← order_generator]
      apply addOrderOf_dvd_of_nsmul_eq_zero
      rw [mul_nsmul']
      exact h
    have hq : q ∣ n := by
      have : q * 8 ∣ n * 8 := by rwa [mul_comm 8 n] at hd
      exact Nat.dvd_of_mul_dvd_mul_right (by decide) this
    obtain ⟨m, rfl⟩ := hq
    refine ⟨q * m % 8, Nat.mod_lt _ (by decide), ?_⟩
    have e : (q * m % 8) • eighth = (q * m) • eighth := by
      conv_lhs => rw [← order_eighth, mod_addOrderOf_nsmul]
    rw [e, nsmul_add, mul_comm q m, mul_nsmul', base_order, nsmul_zero, zero_add]
  · rintro ⟨k, -, rfl⟩
    rw [← mul_nsmul', mul_comm, mul_nsmul', eight_eighth, nsmul_zero]

/-- Eight times a point is a multiple of the base point. -/
theorem eight_smul (P : Curve25519) : ∃ n : Nat, 8 • P = n • base := by
  obtain ⟨n, rfl⟩ := generated P
  refine ⟨8 * n, ?_⟩
  rw [← mul_nsmul', nsmul_add, mul_comm 8 n, mul_nsmul' eighth, eight_eighth, nsmul_zero, add_zero]

theorem scalar_smul (s : Bytes) (P : Curve25519) (n : Nat) (h : 8 • P = n • base) :
    decodeScalar s • P = (decodeScalar s / 8 * n) • base := by
  obtain ⟨m, e, -, -⟩ := scalar_eq s
  rw [e, mul_comm 8 m, mul_nsmul', h, ← mul_nsmul', show m * 8 / 8 = m by omega]

theorem scalar_div_ndvd (s : Bytes) : ¬ q ∣ decodeScalar s / 8 := by
  obtain ⟨m, e, -, -⟩ := scalar_eq s
  intro h
  apply scalar_ndvd s
  rw [e] at h ⊢
  rw [show 8 * m / 8 = m by omega] at h
  exact Dvd.dvd.mul_left h 8

/-- A scalar of the function kills a point iff eight does. -/
theorem scalar_kills (s : Bytes) (P : Curve25519) : decodeScalar s • P = 0 ↔ 8 • P = 0 := by
  obtain ⟨n, h⟩ := eight_smul P
  rw [scalar_smul s P n h, h, smul_base, smul_base]
  constructor
  · intro hd
    rcases (Nat.Prime.dvd_mul q_prime).mp hd with hd | hd
    · exact absurd hd (scalar_div_ndvd s)
    · exact hd
  · exact fun hd => Dvd.dvd.mul_left hd _

/-- Multiples by scalars of the function have u-coordinate 0 only if they are 0. -/
theorem uCoord_scalar (s : Bytes) (P : Curve25519) : uCoord (decodeScalar s • P) = 0 ↔ 8 • P = 0 := by
  rw [← scalar_kills s P]
  obtain ⟨n, h⟩ := eight_smul P
  rw [scalar_smul s P n h, smul_base, uCoord_smul]

/-- On a point that eight does not kill, two secrets give the same u-coordinate iff they have the same public key. -/
theorem uCoord_two (s t : Bytes) (P : Curve25519) (hP : 8 • P ≠ 0) :
    uCoord (decodeScalar s • P) = uCoord (decodeScalar t • P) ↔ publicKey s = publicKey t := by
  have hb : 8 • base ≠ 0 := by
    rw [Ne, smul_base]
    intro h
    exact absurd (Nat.le_of_dvd (by norm_num) h) (by decide +kernel)
  have key : ∀ Q : Curve25519, 8 • Q ≠ 0 → (uCoord (decodeScalar s • Q) = uCoord (decodeScalar t • Q) ↔
      decodeScalar s / 8 ≡ decodeScalar t / 8 [MOD q] ∨ q ∣ decodeScalar s / 8 + decodeScalar t / 8) := by
    intro Q hQ
    obtain ⟨n, h⟩ := eight_smul Q
    have hn : ¬ q ∣ n := by
      rw [← smul_base, ← h]
      exact hQ
    have hc : Nat.Coprime q n := (Nat.Prime.coprime_iff_not_dvd q_prime).mpr hn
    rw [uCoord_eq ((scalar_kills s Q).not.mpr hQ) ((scalar_kills t Q).not.mpr hQ), scalar_smul s Q n h, scalar_smul t Q n h,
      eq_neg_iff_add_eq_zero, ← add_smul, smul_base, smul_base_eq, ← Nat.add_mul]
    refine or_congr ⟨fun h => Nat.ModEq.cancel_right_of_coprime hc h, fun h => Nat.ModEq.mul_right n h⟩
      ⟨fun h => hc.dvd_of_dvd_mul_right h, fun h => Dvd.dvd.mul_right h n⟩
  rw [key P hP, publicKey_eq, publicKey_eq]
  rw [show (leBytes 32 (uCoord (decodeScalar s • base)).val = leBytes 32 (uCoord (decodeScalar t • base)).val) ↔
    uCoord (decodeScalar s • base) = uCoord (decodeScalar t • base) from ⟨leBytes_injective, fun h => by rw [h]⟩, key base hb]

/-! ### Where the u-coordinate is 0 -/

/-- The products of the coordinates are 0. -/
def Flat (l : Ladder) : Prop := (l.x2 : F) * (l.z2 : F) = 0 ∧ (l.x3 : F) * (l.z3 : F) = 0

theorem flat_cswap {l : Ladder} (b : Bool) (h : Flat l) : Flat (cswap b l) := by
  cases b
  · exact h
  · exact ⟨h.2, h.1⟩

theorem flat_step {x1 : Nat} (hx : (x1 : F) = 0) {l : Ladder} (h : Flat l) :
    ((step x1 l).z2 : F) = 0 ∧ ((step x1 l).z3 : F) = 0 := by
  obtain ⟨h1, -⟩ := h
  unfold step
  dsimp only
  constructor
  · simp only [ZMod.natCast_mod, Nat.cast_mul, Nat.cast_add, cast_sub']
    have e : ((l.x2 : F) + l.z2) * (l.x2 + l.z2) - (l.x2 - l.z2) * (l.x2 - l.z2) = 0 := by linear_combination 4 * h1
    rw [e, zero_mul]
  · rw [ZMod.natCast_mod, Nat.cast_mul, hx, zero_mul]

theorem flat_loop (k x1 : Nat) (hx : (x1 : F) = 0) : ∀ (t : Nat) (l : Ladder) (b : Bool), Flat l → (0 < t ∨
    ((l.z2 : F) = 0 ∧ (l.z3 : F) = 0)) → ((loop k x1 t l b).z2 : F) = 0
  | 0, l, b, _, h => by
    rcases h with h | h
    · omega
    · cases b
      · exact h.1
      · exact h.2
  | t + 1, l, b, hf, _ => by
    have hs := flat_step hx (flat_cswap (b != k.testBit t) hf)
    exact flat_loop k x1 hx t _ _ ⟨by rw [hs.1, mul_zero], by rw [hs.2, mul_zero]⟩ (.inr hs)

theorem x25519_zero (k u : Bytes) (h : ((decodeU u : Nat) : F) = 0) : x25519 k u = List.replicate 32 0 := by
  have hz := flat_loop (decodeScalar k) (decodeU u) h 255 ⟨1, 0, decodeU u, 1⟩ false
    ⟨by simp, by rw [h, zero_mul]⟩ (.inl (by decide))
  unfold x25519
  generalize loop (decodeScalar k) (decodeU u) 255 ⟨1, 0, decodeU u, 1⟩ false = l at hz
  dsimp only
  have e : l.x2 * Ed25519.inv l.z2 % p = 0 := by
    have : ((l.x2 * Ed25519.inv l.z2 : Nat) : F) = ((0 : Nat) : F) := by
      rw [Nat.cast_mul, cast_inv', hz, inv_zero, mul_zero, Nat.cast_zero]
    rw [cast_eq_iff, Nat.zero_mod] at this
    exact this
  rw [e]
  decide

/-! ### The four u-coordinates -/

/-- The u-coordinates of points killed by eight. -/
def smallU : List Nat :=
  [0, 1, 325606250916557431795983626356110631294008115727848805560023387167927233504,
   39382357235489614581723060781553021112529911719440698176882885853963445705823]

theorem uCoord_smul_eighth (k : Nat) (hk : k < 8) : (uCoord (k • eighth)).val ∈ smallU := by
  have h := rep_div (rep_smul_eighth k (by omega))
  rw [← h, ← cast_inv', ← Nat.cast_mul, ZMod.val_natCast]
  interval_cases k <;> decide +kernel

theorem uCoord_mem (x : Nat) (hx : x ∈ smallU) : ∃ k, 0 < k ∧ k < 8 ∧ uCoord (k • eighth) = ((x : Nat) : F) := by
  have key : ∀ k, k < 8 → (loop k eighthU 255 ⟨1, 0, eighthU, 1⟩ false).x2 *
      Ed25519.inv (loop k eighthU 255 ⟨1, 0, eighthU, 1⟩ false).z2 % p = x % p → uCoord (k • eighth) = ((x : Nat) : F) := by
    intro k hk e
    rw [← rep_div (rep_smul_eighth k (by omega)), ← cast_inv', ← Nat.cast_mul, cast_eq_iff]
    exact e
  simp only [smallU, List.mem_cons, List.not_mem_nil, or_false] at hx
  rcases hx with rfl | rfl | rfl | rfl
  · exact ⟨4, by decide, by decide, key 4 (by decide) (by decide +kernel)⟩
  · exact ⟨2, by decide, by decide, key 2 (by decide) (by decide +kernel)⟩
  · exact ⟨1, by decide, by decide, key 1 (by decide) (by decide +kernel)⟩
  · exact ⟨3, by decide, by decide, key 3 (by decide) (by decide +kernel)⟩

theorem smul_eighth_ne (k : Nat) (h0 : 0 < k) (hk : k < 8) : k • eighth ≠ 0 := by
  intro h
  have := addOrderOf_dvd_of_nsmul_eq_zero h
  rw [order_eighth] at this
  exact absurd (Nat.le_of_dvd h0 this) (by omega)

/-- Which points are killed by eight, by their u-coordinate. -/
theorem small_uCoord (P : Curve25519) (hP : P ≠ 0) : 8 • P = 0 ↔ (uCoord P).val ∈ smallU := by
  constructor
  · intro h
    obtain ⟨k, hk, rfl⟩ := (small_iff P).mp h
    exact uCoord_smul_eighth k hk
  · intro h
    obtain ⟨k, h0, hk, e⟩ := uCoord_mem _ h
    rw [ZMod.natCast_zmod_val] at e
    have h8 : 8 • (k • eighth) = 0 := (small_iff _).mpr ⟨k, hk, rfl⟩
    rcases (uCoord_eq hP (smul_eighth_ne k h0 hk)).mp e.symm with rfl | rfl
    · exact h8
    · rw [neg_nsmul, h8, neg_zero]

/-! ### Only the residue of the u-coordinate counts -/

/-- The same residues. -/
def SameResidues (l l' : Ladder) : Prop :=
  (l.x2 : F) = l'.x2 ∧ (l.z2 : F) = l'.z2 ∧ (l.x3 : F) = l'.x3 ∧ (l.z3 : F) = l'.z3

theorem alike_cswap {l l' : Ladder} (b : Bool) (h : SameResidues l l') : SameResidues (cswap b l) (cswap b l') := by
  cases b
  · exact h
  · exact ⟨h.2.2.1, h.2.2.2, h.1, h.2.1⟩

theorem alike_step {x y : Nat} (hx : (x : F) = y) {l l' : Ladder} (h : SameResidues l l') : SameResidues (step x l) (step y l') := by
  obtain ⟨h1, h2, h3, h4⟩ := h
  unfold step
  refine ⟨?_, ?_, ?_, ?_⟩ <;> dsimp only <;>
    simp only [ZMod.natCast_mod, Nat.cast_mul, Nat.cast_add, cast_sub', h1, h2, h3, h4, hx]

theorem alike_loop (k : Nat) {x y : Nat} (hx : (x : F) = y) : ∀ (t : Nat) (l l' : Ladder) (b : Bool), SameResidues l l' →
    SameResidues (loop k x t l b) (loop k y t l' b)
  | 0, _, _, b, h => alike_cswap b h
  | t + 1, _, _, b, h => alike_loop k hx t _ _ _ (alike_step hx (alike_cswap (b != k.testBit t) h))

theorem x25519_congr (k u u' : Bytes) (h : ((decodeU u : Nat) : F) = ((decodeU u' : Nat) : F)) :
    x25519 k u = x25519 k u' := by
  have hl := alike_loop (decodeScalar k) h 255 ⟨1, 0, decodeU u, 1⟩ ⟨1, 0, decodeU u', 1⟩ false ⟨rfl, rfl, h, rfl⟩
  unfold x25519
  generalize loop (decodeScalar k) (decodeU u) 255 ⟨1, 0, decodeU u, 1⟩ false = l at hl ⊢
  generalize loop (decodeScalar k) (decodeU u') 255 ⟨1, 0, decodeU u', 1⟩ false = l' at hl ⊢
  dsimp only
  congr 1
  rw [← cast_eq_iff, Nat.cast_mul, Nat.cast_mul, cast_inv', cast_inv', hl.1, hl.2.1]

/-! ### Any key of the curve -/

/-- The coordinates of a point of the curve. -/
theorem point_of {x v : F} (h : v ^ 2 = x ^ 3 + 486662 * x ^ 2 + x) : ∃ P : Curve25519, P ≠ 0 ∧ uCoord P = x := by
  have hn : (montgomery (F := F) 486662).Nonsingular x v := by
    rw [nonsingular_iff]
    constructor
    · rw [equation_iff]
      linear_combination h
    · by_cases hv : v = 0
      · left
        subst hv
        simp only [mul_zero, ne_eq]
        intro e
        have e1 : x * (x ^ 2 + 486662 * x + 1) = 0 := by linear_combination -h
        have e2 : 3 * x ^ 2 + 2 * 486662 * x + 1 = 0 := by linear_combination -e
        rcases mul_eq_zero.mp e1 with h0 | h0
        · rw [h0] at e2
          have : (1 : F) = 0 := by linear_combination e2
          exact one_ne_zero this
        · have h3 : (486662 : F) ^ 2 = 4 := by
            have t1 : 486662 * x + 2 = 0 := by linear_combination 3 * h0 - e2
            have t2 : x * (2 * x + 486662) = 0 := by linear_combination e2 - h0
            rcases mul_eq_zero.mp t2 with hx | hx
            · rw [hx] at e2
              have : (1 : F) = 0 := by linear_combination e2
              exact absurd this one_ne_zero
            · linear_combination 486662 * hx - 2 * t1
          exact A_ne h3
      · right
        simp only [zero_mul, sub_zero, ne_eq]
        intro e
        have : (2 : F) * v = 0 := by linear_combination e
        rcases mul_eq_zero.mp this with h2 | h2
        · exact two_ne h2
        · exact hv h2
  exact ⟨Point.some x v hn, Point.some_ne_zero _, rfl⟩

/-- On any key of the curve: the value is all zero iff the u-coordinate is one of the four. -/
theorem x25519_zero_iff (s u : Bytes) (P : Curve25519) (h0 : P ≠ 0) (hP : uCoord P = ((decodeU u : Nat) : F)) :
    x25519 s u = List.replicate 32 0 ↔ (uCoord P).val ∈ smallU := by
  by_cases hz : uCoord P = 0
  · rw [hz] at hP
    refine iff_of_true (x25519_zero s u hP.symm) ?_
    rw [hz, ZMod.val_zero]
    exact List.mem_cons_self
  · rw [x25519_eq s u P hP hz, ← small_uCoord P h0, ← uCoord_scalar s P]
    have e0 : List.replicate 32 0 = leBytes 32 (0 : F).val := by rw [ZMod.val_zero]; decide
    rw [e0]
    exact ⟨leBytes_injective, fun h => by rw [h]⟩

/-- On any other key of the curve two secrets give the same value iff they have the same public key. -/
theorem x25519_two (s t u : Bytes) (P : Curve25519) (h0 : P ≠ 0) (hP : uCoord P = ((decodeU u : Nat) : F))
    (hs : (uCoord P).val ∉ smallU) : x25519 s u = x25519 t u ↔ publicKey s = publicKey t := by
  have hz : uCoord P ≠ 0 := by
    intro h
    rw [h, ZMod.val_zero] at hs
    exact hs List.mem_cons_self
  rw [x25519_eq s u P hP hz, x25519_eq t u P hP hz, ← uCoord_two s t P ((small_uCoord P h0).not.mpr hs)]
  exact ⟨leBytes_injective, fun h => by rw [h]⟩

end Verif.X25519
