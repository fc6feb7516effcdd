import Verif.Concrete.MontgomeryOrder
import Verif.Concrete.Twisted
import Mathlib.NumberTheory.LegendreSymbol.Basic

/-
The twist of curve25519: the u-coordinates that are not those of points of the curve. The function X25519 multiplies there
as well. The points of the curve and of its twist are together 2 p + 2, so the twist has 4 q' of them, with a prime q'.
-/

namespace Verif.Ed25519

/-- A prime: the number of points of the twist of curve25519 is four times it. -/
def twistQ : Nat := 14474011154664524427946373126085988481603263447650325797860494125407373907997

theorem twistPrime1 : Nat.Prime 6418733 :=
  prime_of_pratt (g := 2) (factors := [2, 2, 19, 84457]) (by decide +kernel) (by simp; norm_num)

theorem twistPrime2 : Nat.Prime 1110318119 :=
  prime_of_pratt (g := 7) (factors := [2, 7, 13, 487, 12527]) (by decide +kernel) (by simp; norm_num)

theorem twistPrime3 : Nat.Prime 2220636239 :=
  prime_of_pratt (g := 23) (factors := [2, 1110318119]) (by decide +kernel) (by have := twistPrime2; simp [this]; norm_num)

theorem twistPrime4 : Nat.Prime 743104567 :=
  prime_of_pratt (g := 6) (factors := [2, 3, 3, 3637, 11351]) (by decide +kernel) (by simp; norm_num)

theorem twistPrime5 : Nat.Prime 1013266244677 :=
  prime_of_pratt (g := 2) (factors := [2, 2, 3, 7, 383, 3911, 8053]) (by decide +kernel) (by simp; norm_num)

theorem twistPrime6 : Nat.Prime 5171003929967 :=
  prime_of_pratt (g := 5) (factors := [2, 7, 31, 181, 2281, 28859]) (by decide +kernel) (by simp; norm_num)

theorem twistPrime7 : Nat.Prime 22561162540501040539 :=
  prime_of_pratt (g := 3) (factors := [2, 3, 727169, 5171003929967]) (by decide +kernel)
    (by have := twistPrime6; simp [this]; norm_num)

theorem twistPrime8 : Nat.Prime 203852586375664218368381551393371968928013 :=
  prime_of_pratt (g := 2) (factors := [2, 2, 3, 743104567, 1013266244677, 22561162540501040539]) (by decide +kernel)
    (by have := twistPrime4; have := twistPrime5; have := twistPrime7; simp [*]; norm_num)

theorem twistPrime9 : Nat.Prime 104719073621178708975837602950775180438320278101 :=
  prime_of_pratt (g := 2) (factors := [2, 2, 5, 5, 11, 467, 203852586375664218368381551393371968928013]) (by decide +kernel)
    (by have := twistPrime8; simp [this]; norm_num)

theorem twistPrime10 : Nat.Prime 27413359092552162435694767700453926735143482401279781 :=
  prime_of_pratt (g := 2) (factors := [2, 2, 3, 5, 4363, 104719073621178708975837602950775180438320278101]) (by decide +kernel)
    (by have := twistPrime9; simp [this]; norm_num)

theorem twistQ_prime : twistQ.Prime :=
  prime_of_pratt (g := 2) (factors := [2, 2, 79, 117223, 6418733, 2220636239,
    27413359092552162435694767700453926735143482401279781]) (by decide +kernel)
    (by have := twistPrime1; have := twistPrime3; have := twistPrime10; simp [*]; norm_num)

end Verif.Ed25519

namespace Verif.Spec

/-- The group of points of the twist of curve25519. -/
abbrev Twist25519 : Type := (twisted (F := Ed25519.F) 2 486662).Point

end Verif.Spec

namespace Verif.X25519.Twist
open Spec Twisted WeierstrassCurve.Affine
open Blake3 (leVal leBytes leBytes_length)
open Ed25519 (p q p_prime q_prime F cast_sub' cast_inv' cast_eq_iff leVal_lt leVal_leBytes twistQ twistQ_prime)

/-- The ladder in the field. -/
theorem step_rep (x1 : Nat) (l : Ladder) (P Q R : Twist25519) (hP : twistU P = ((x1 : Nat) : F)) (h0 : twistU P ≠ 0)
    (hQ : Rep (l.x2 : F) (l.z2 : F) Q) (hR : Rep (l.x3 : F) (l.z3 : F) R) (hd : R - Q = P ∨ Q - R = P) :
    Rep ((step x1 l).x2 : F) ((step x1 l).z2 : F) (Q + Q) ∧ Rep ((step x1 l).x3 : F) ((step x1 l).z3 : F) (Q + R) := by
  have h1 := rep_double two_ne two_ne A_ne hQ
  have h2 := rep_add two_ne two_ne A_ne hQ hR h0 hd
  rw [hP] at h2
  constructor
  · have e1 : ((step x1 l).x2 : F) = ((l.x2 : F) ^ 2 - (l.z2 : F) ^ 2) ^ 2 := by
      simp only [step]
      push_cast [cast_sub', ZMod.natCast_mod]
      ring
    have e2 : ((step x1 l).z2 : F) = 4 * l.x2 * l.z2 * ((l.x2 : F) ^ 2 + 486662 * l.x2 * l.z2 + (l.z2 : F) ^ 2) := by
      simp only [step]
      push_cast [cast_sub', ZMod.natCast_mod]
      ring
    rw [e1, e2]
    exact h1
  · have e1 : ((step x1 l).x3 : F) = 4 * ((l.x2 : F) * l.x3 - l.z2 * l.z3) ^ 2 := by
      simp only [step]
      push_cast [cast_sub', ZMod.natCast_mod]
      ring
    have e2 : ((step x1 l).z3 : F) = (x1 : F) * (4 * ((l.x3 : F) * l.z2 - l.x2 * l.z3) ^ 2) := by
      simp only [step]
      push_cast [cast_sub', ZMod.natCast_mod]
      ring
    rw [e1, e2]
    exact h2

theorem loop_rep (k x1 : Nat) (P : Twist25519) (hP : twistU P = ((x1 : Nat) : F)) (h0 : twistU P ≠ 0) :
    ∀ (t : Nat) (l : Ladder) (swap : Bool),
      Rep ((cswap swap l).x2 : F) ((cswap swap l).z2 : F) ((k / 2 ^ t) • P) →
      Rep ((cswap swap l).x3 : F) ((cswap swap l).z3 : F) ((k / 2 ^ t + 1) • P) →
      Rep ((loop k x1 t l swap).x2 : F) ((loop k x1 t l swap).z2 : F) (k • P) := by
  intro t
  induction t with
  | zero =>
    intro l swap h _
    rw [pow_zero, Nat.div_one] at h
    exact h
  | succ t ih =>
    intro l swap h h'
    rw [loop]
    have hc : cswap (swap != k.testBit t) l = cswap (k.testBit t) (cswap swap l) := by
      cases swap <;> cases k.testBit t <;> rfl
    rw [hc]
    generalize cswap swap l = m at h h'
    have hn := div_pow_testBit k t
    generalize k / 2 ^ (t + 1) = n at h h' hn
    cases hb : k.testBit t with
    | false =>
      rw [hb, if_neg (by decide), Nat.add_zero] at hn
      have hs := step_rep x1 m P (n • P) ((n + 1) • P) hP h0 h h' (.inl (by rw [add_smul, one_smul, add_sub_cancel_left]))
      rw [← add_smul, ← add_smul] at hs
      refine ih _ false ?_ ?_
      · rw [hn, two_mul]; exact hs.1
      · rw [hn, two_mul, Nat.add_assoc]; exact hs.2
    | true =>
      rw [hb, if_pos rfl] at hn
      have hs := step_rep x1 (cswap true m) P ((n + 1) • P) (n • P) hP h0 h' h (.inr (by rw [add_smul, one_smul, add_sub_cancel_left]))
      rw [← add_smul, ← add_smul] at hs
      refine ih _ true ?_ ?_
      · rw [hn, two_mul, Nat.add_right_comm]; exact hs.2
      · rw [hn, show 2 * n + 1 + 1 = n + 1 + (n + 1) by omega]; exact hs.1

/-- The ladder multiplies. -/
theorem ladder_rep (k x1 : Nat) (hk : k < 2 ^ 255) (P : Twist25519) (hP : twistU P = ((x1 : Nat) : F)) (h0 : twistU P ≠ 0) :
    Rep ((loop k x1 255 ⟨1, 0, x1, 1⟩ false).x2 : F) ((loop k x1 255 ⟨1, 0, x1, 1⟩ false).z2 : F) (k • P) := by
  refine loop_rep k x1 P hP h0 255 _ false ?_ ?_
  · rw [Nat.div_eq_of_lt hk, zero_nsmul]
    exact ⟨Nat.cast_zero, by rw [show (cswap false ⟨1, 0, x1, 1⟩).x2 = 1 from rfl, Nat.cast_one]; exact one_ne_zero⟩
  · rw [Nat.div_eq_of_lt hk, zero_add, one_smul]
    have := rep_one P (by rintro rfl; exact h0 rfl)
    rw [hP] at this
    rw [show (cswap false ⟨1, 0, x1, 1⟩).x3 = x1 from rfl, show (cswap false ⟨1, 0, x1, 1⟩).z3 = 1 from rfl, Nat.cast_one]
    exact this

/-- The function on a u-coordinate of the twist. -/
theorem x25519_eq (k u : Bytes) (P : Twist25519) (hP : twistU P = ((decodeU u : Nat) : F)) (h0 : twistU P ≠ 0) :
    x25519 k u = leBytes 32 (twistU (decodeScalar k • P)).val := by
  unfold x25519
  have h := rep_div (ladder_rep (decodeScalar k) (decodeU u) (scalar_lt k) P hP h0)
  simp only
  rw [← h, ← cast_inv', ← Nat.cast_mul, ZMod.val_natCast]

/-- Two is not a square. -/
theorem two_nonsq (s : F) : s * s ≠ 2 := by
  intro h
  have hd : (2 : F) ^ ((p - 1) / 2) = -1 := by
    have : ((2 : Nat) : F) ^ ((p - 1) / 2) = -1 := by
      rw [← Ed25519.cast_powMod (by decide +kernel), Ed25519.neg_one_eq, cast_eq_iff]
      decide +kernel
    rwa [Nat.cast_ofNat] at this
  have hs : s ≠ 0 := by
    rintro rfl
    exact two_ne (by rw [← h, mul_zero])
  have h1 : (2 : F) ^ ((p - 1) / 2) = 1 := by
    rw [← h, ← pow_two, ← pow_mul, show 2 * ((p - 1) / 2) = p - 1 by decide +kernel]
    exact ZMod.pow_card_sub_one_eq_one hs
  rw [h1] at hd
  exact two_ne (by linear_combination hd)

/-- The points of curve and twist, by u-coordinate and one more bit. -/
def both : Curve25519 ⊕ Twist25519 → (F × Fin 2) ⊕ Fin 2
  | .inl .zero => .inr 0
  | .inr .zero => .inr 1
  | .inl (.some u v _) => .inl (u, ⟨v.val % 2, Nat.mod_lt _ (by decide)⟩)
  | .inr (.some x y _) => .inl (x / 2, if y = 0 then 1 else ⟨y.val % 2, Nat.mod_lt _ (by decide)⟩)

/-- Twice the u-coordinate of a point of the curve is not that of a point of the twist, but for points of order two. -/
theorem apart {u v x y : F} (h : (montgomery (F := F) 486662).Nonsingular u v)
    (h' : (twisted (F := F) 2 486662).Nonsingular x y) (e : u = x / 2) : v = 0 ∧ y = 0 := by
  have e1 := Montgomery.equation h
  have e2 := equation h'
  have hx : x = 2 * u := by rw [e, mul_div_cancel₀ x two_ne]
  have e3 : y ^ 2 = 8 * v ^ 2 := by
    rw [e1, e2, hx]
    ring
  by_cases hv : v = 0
  · refine ⟨hv, ?_⟩
    rw [hv] at e3
    have : y ^ 2 = 0 := by linear_combination e3
    exact pow_eq_zero_iff (by norm_num) |>.mp this
  · exfalso
    apply two_nonsq (y / (2 * v))
    have : (2 * v : F) ≠ 0 := mul_ne_zero two_ne hv
    rw [div_mul_div_comm, div_eq_iff (mul_ne_zero this this)]
    linear_combination e3

theorem both_injective : Function.Injective both := by
  intro P Q e
  rcases P with P | P <;> rcases Q with Q | Q
  · have : sides P = sides Q := by
      cases P with
      | zero =>
        cases Q with
        | zero => rfl
        | some u' v' h' => exact nomatch e
      | some u v h =>
        cases Q with
        | zero => exact nomatch e
        | some u' v' h' =>
          unfold both at e
          rw [Sum.inl.injEq] at e
          exact congrArg some e
    rw [sides_injective this]
  · exfalso
    cases P with
    | zero =>
      cases Q with
      | zero => exact absurd (Sum.inr.inj e) (by decide)
      | some u' v' h' => exact nomatch e
    | some u v h =>
      cases Q with
      | zero => exact nomatch e
      | some x y h' =>
        unfold both at e
        rw [Sum.inl.injEq, Prod.mk.injEq] at e
        obtain ⟨rfl, rfl⟩ := apart h h' e.1
        have e2 := congrArg Fin.val e.2
        rw [if_pos rfl] at e2
        simp at e2
  · exfalso
    cases P with
    | zero =>
      cases Q with
      | zero => exact absurd (Sum.inr.inj e) (by decide)
      | some u' v' h' => exact nomatch e
    | some x y h' =>
      cases Q with
      | zero => exact nomatch e
      | some u v h =>
        unfold both at e
        rw [Sum.inl.injEq, Prod.mk.injEq] at e
        obtain ⟨rfl, rfl⟩ := apart h h' e.1.symm
        have e2 := congrArg Fin.val e.2
        rw [if_pos rfl] at e2
        simp at e2
  · congr 1
    cases P with
    | zero =>
      cases Q with
      | zero => rfl
      | some u' v' h' => exact nomatch e
    | some x y h =>
      cases Q with
      | zero => exact nomatch e
      | some x' y' h' =>
        unfold both at e
        rw [Sum.inl.injEq, Prod.mk.injEq] at e
        obtain ⟨e1, e2⟩ := e
        have hx : x = x' := by
          rw [div_left_inj' two_ne] at e1
          exact e1
        subst hx
        have hy : y = y' := by
          have e3 := (equation h).trans (equation h').symm
          by_cases h0 : y = 0
          · rw [h0] at e3
            have : y' ^ 2 = 0 := by rw [← e3]; ring
            rw [h0, pow_eq_zero_iff (by norm_num) |>.mp this]
          · have h0' : y' ≠ 0 := by
              rintro rfl
              apply h0
              have : y ^ 2 = 0 := by rw [e3]; ring
              exact pow_eq_zero_iff (by norm_num) |>.mp this
            rw [if_neg h0, if_neg h0', Fin.mk.injEq] at e2
            rcases sq_eq_sq_iff_eq_or_eq_neg.mp e3 with hv | hv
            · exact hv
            · rw [hv] at e2
              rw [hv]
              exact (neg_parity e2.symm).symm
        subst hy
        rfl

instance : Finite Twist25519 := Finite.of_injective (fun P => both (.inr P)) (fun _ _ h => Sum.inr.inj (both_injective h))

theorem card_le : Nat.card Twist25519 ≤ twistQ * 4 := by
  have h := Nat.card_le_card_of_injective both both_injective
  rw [Nat.card_sum, Nat.card_sum, Nat.card_prod, Nat.card_zmod, Nat.card_fin, card_points] at h
  have e : p * 2 + 2 = q * 8 + twistQ * 4 := by decide +kernel
  omega

theorem nonsingular_of (x y : Nat) (h : y ^ 2 % p = (x ^ 3 + 2 * 486662 * x ^ 2 + 4 * x) % p) (h2 : 2 * y % p ≠ 0) :
    (twisted (F := F) 2 486662).Nonsingular (x : F) (y : F) := by
  rw [nonsingular_iff]
  constructor
  · rw [equation_iff]
    have := (cast_eq_iff _ _).mpr h
    push_cast at this
    linear_combination this
  · refine .inr ?_
    intro h
    have : ((2 * y : Nat) : F) = ((0 : Nat) : F) := by
      push_cast
      simp only [zero_mul, sub_zero] at h
      linear_combination h
    rw [cast_eq_iff, Nat.zero_mod] at this
    exact h2 this

/-- The point of the twist with u-coordinate 3. -/
def three : Twist25519 :=
  Point.some ((6 : Nat) : F) ((5671381949860991799208549907369449191353686442955599940438599596257952785253 : Nat) : F)
    (nonsingular_of _ _ (by decide +kernel) (by decide +kernel))

theorem twistU_three : twistU three = ((3 : Nat) : F) := by
  show ((6 : Nat) : F) / 2 = _
  rw [div_eq_iff two_ne]
  norm_num

theorem three_ne : ((3 : Nat) : F) ≠ 0 := by
  intro h
  rw [← Nat.cast_zero, cast_eq_iff] at h
  revert h
  decide +kernel

theorem twistU_three_ne : twistU three ≠ 0 := by
  rw [twistU_three]
  exact three_ne

theorem rep_smul_three (k : Nat) (hk : k < 2 ^ 255) :
    Rep ((loop k 3 255 ⟨1, 0, 3, 1⟩ false).x2 : F) ((loop k 3 255 ⟨1, 0, 3, 1⟩ false).z2 : F) (k • three) :=
  ladder_rep k 3 hk three twistU_three twistU_three_ne

theorem smul_three_zero (k : Nat) (hk : k < 2 ^ 255) :
    k • three = 0 ↔ (loop k 3 255 ⟨1, 0, 3, 1⟩ false).z2 % p = 0 := by
  rw [rep_zero (rep_smul_three k hk)]
  have := cast_eq_iff (loop k 3 255 ⟨1, 0, 3, 1⟩ false).z2 0
  rw [Nat.cast_zero, Nat.zero_mod] at this
  exact this

/-- It generates the group. -/
theorem order_three : addOrderOf three = twistQ * 4 := by
  apply addOrderOf_eq_of_nsmul_and_div_prime_nsmul
  · decide +kernel
  · exact (smul_three_zero _ (by decide +kernel)).mpr (by decide +kernel)
  · intro r hr hd
    rcases (Nat.Prime.dvd_mul hr).mp hd with h | h
    · rw [(Nat.prime_dvd_prime_iff_eq hr twistQ_prime).mp h, Nat.mul_div_cancel_left 4 twistQ_prime.pos]
      exact (smul_three_zero _ (by decide +kernel)).not.mpr (by decide +kernel)
    · have h2 : r = 2 := by
        have : r ∣ 2 * 2 := h
        rcases (Nat.Prime.dvd_mul hr).mp this with h | h <;> exact (Nat.prime_dvd_prime_iff_eq hr Nat.prime_two).mp h
      rw [h2, show twistQ * 4 / 2 = twistQ * 2 by decide +kernel]
      exact (smul_three_zero _ (by decide +kernel)).not.mpr (by decide +kernel)

/-- The number of points of the twist. -/
theorem card_points : Nat.card Twist25519 = twistQ * 4 := by
  apply Nat.le_antisymm card_le
  have hd : twistQ * 4 ∣ Nat.card Twist25519 := order_three ▸ addOrderOf_dvd_natCard _
  exact Nat.le_of_dvd Nat.card_pos hd

/-- Every point is a multiple of it. -/
theorem generated (P : Twist25519) : ∃ n : Nat, P = n • three := by
  have htop : AddSubgroup.zmultiples three = ⊤ := by
    apply AddSubgroup.eq_top_of_card_eq
    rw [Nat.card_zmultiples, order_three, card_points]
  have hm : P ∈ AddSubgroup.zmultiples three := by rw [htop]; trivial
  rw [← mem_multiples_iff_mem_zmultiples] at hm
  obtain ⟨n, hn⟩ := AddSubmonoid.mem_multiples_iff _ _ |>.mp hm
  exact ⟨n, hn.symm⟩

theorem smul_three (n : Nat) : n • three = 0 ↔ twistQ * 4 ∣ n := by
  rw [← order_three, addOrderOf_dvd_iff_nsmul_eq_zero]

theorem scalar_ndvd (s : Bytes) : ¬ twistQ ∣ decodeScalar s / 8 := by
  obtain ⟨m, e, h1, h2⟩ := scalar_eq s
  rw [e, show 8 * m / 8 = m by omega]
  intro h
  have := Nat.le_of_dvd (by omega) h
  have : 2 ^ 252 ≤ twistQ := by decide +kernel
  omega

theorem scalar_div (s : Bytes) : decodeScalar s = 8 * (decodeScalar s / 8) := by
  obtain ⟨m, e, -, -⟩ := scalar_eq s
  omega

theorem coprime_eight : Nat.Coprime twistQ 8 := by decide +kernel

/-- Eight times a number, times a number, is divisible by the number of points iff. -/
theorem eight_dvd (m n : Nat) (hm : ¬ twistQ ∣ m) : twistQ * 4 ∣ 8 * m * n ↔ twistQ ∣ n := by
  constructor
  · intro h
    have h1 : twistQ ∣ 8 * m * n := dvd_trans (Dvd.intro _ rfl) h
    rcases (Nat.Prime.dvd_mul twistQ_prime).mp h1 with h2 | h2
    · exact absurd (coprime_eight.dvd_of_dvd_mul_left h2) hm
    · exact h2
  · rintro ⟨c, rfl⟩
    exact ⟨2 * m * c, by ring⟩

/-- A scalar of the function kills a point iff four does. -/
theorem scalar_kills (s : Bytes) (P : Twist25519) : decodeScalar s • P = 0 ↔ 4 • P = 0 := by
  obtain ⟨n, rfl⟩ := generated P
  rw [← mul_nsmul', ← mul_nsmul', smul_three, smul_three, scalar_div s, eight_dvd _ _ (scalar_ndvd s)]
  constructor
  · rintro ⟨c, rfl⟩
    exact ⟨c, by ring⟩
  · intro h
    exact Nat.dvd_of_mul_dvd_mul_right (k := 4) (by decide) (by rwa [mul_comm 4 n] at h)

theorem twistU_eq {P Q : Twist25519} (hP : P ≠ 0) (hQ : Q ≠ 0) : twistU P = twistU Q ↔ P = Q ∨ P = -Q := by
  cases P with
  | zero => exact absurd rfl hP
  | some u v h =>
    cases Q with
    | zero => exact absurd rfl hQ
    | some u' v' h' =>
      show u / 2 = u' / 2 ↔ _
      rw [div_left_inj' two_ne]
      exact Point.X_eq_iff

/-- A point other than 0 with u-coordinate 0 has order two. -/
theorem twistU_zero {P : Twist25519} (h : twistU P = 0) : 2 • P = 0 := by
  cases P with
  | zero => exact nsmul_zero 2
  | some x y hn =>
    have hx : x = 0 := by
      have : x / 2 = 0 := h
      rcases div_eq_zero_iff.mp this with h | h
      · exact h
      · exact absurd h two_ne
    subst hx
    have hv : y = 0 := by
      have : y ^ 2 = 0 := by rw [equation hn]; ring
      exact pow_eq_zero_iff (by norm_num) |>.mp this
    rw [two_nsmul]
    exact Point.add_self_of_Y_eq (by rw [negY_eq, hv, neg_zero])

/-- Multiples by scalars of the function have u-coordinate 0 only if they are 0. -/
theorem twistU_scalar (s : Bytes) (P : Twist25519) : twistU (decodeScalar s • P) = 0 ↔ 4 • P = 0 := by
  constructor
  · intro h
    have h2 := twistU_zero h
    obtain ⟨n, rfl⟩ := generated P
    rw [← mul_nsmul', ← mul_nsmul', smul_three, scalar_div s] at h2
    have : twistQ * 4 ∣ 8 * (decodeScalar s / 8) * (2 * n) := by
      rwa [show 2 * (8 * (decodeScalar s / 8)) * n = 8 * (decodeScalar s / 8) * (2 * n) by ring] at h2
    rw [eight_dvd _ _ (scalar_ndvd s)] at this
    have hn : twistQ ∣ n := (Nat.Coprime.coprime_dvd_right (by decide) coprime_eight : Nat.Coprime twistQ 2).dvd_of_dvd_mul_left this
    rw [← mul_nsmul', smul_three, mul_comm]
    exact Nat.mul_dvd_mul_left 4 hn
  · intro h
    rw [(scalar_kills s P).mpr h]
    rfl

/-- On a point that four does not kill two secrets give the same u-coordinate iff their scalars are the same or opposite. -/
theorem twistU_two (s t : Bytes) (P : Twist25519) (hP : 4 • P ≠ 0) :
    twistU (decodeScalar s • P) = twistU (decodeScalar t • P) ↔
      decodeScalar s = decodeScalar t ∨ decodeScalar s + decodeScalar t = 8 * twistQ := by
  rw [twistU_eq ((scalar_kills s P).not.mpr hP) ((scalar_kills t P).not.mpr hP)]
  obtain ⟨n, rfl⟩ := generated P
  rw [ne_eq, ← mul_nsmul', smul_three] at hP
  have hn : ¬ twistQ ∣ n := fun h => hP (by rw [mul_comm]; exact Nat.mul_dvd_mul_left 4 h)
  have hc : Nat.Coprime twistQ n := (Nat.Prime.coprime_iff_not_dvd twistQ_prime).mpr hn
  obtain ⟨a, ea, ha1, ha2⟩ := scalar_eq s
  obtain ⟨b, eb, hb1, hb2⟩ := scalar_eq t
  have hq : 2 ^ 252 ≤ twistQ := by decide +kernel
  rw [eq_neg_iff_add_eq_zero, ← mul_nsmul', ← mul_nsmul', ← add_smul, smul_three, nsmul_eq_nsmul_iff_modEq, order_three, ea, eb]
  refine or_congr ⟨fun h => ?_, fun h => by rw [h]⟩ ⟨fun h => ?_, fun h => ?_⟩
  · have h1 : 8 * a * n ≡ 8 * b * n [MOD twistQ] := Nat.ModEq.of_mul_right 4 h
    have h2 := Nat.ModEq.cancel_right_of_coprime hc h1
    have h3 := Nat.ModEq.cancel_left_of_coprime coprime_eight h2
    have h4 := Nat.ModEq.eq_of_lt_of_lt h3 (by omega) (by omega)
    omega
  · have h1 : twistQ ∣ 8 * ((a + b) * n) := by
      refine dvd_trans (Dvd.intro 4 rfl) ?_
      rw [show 8 * ((a + b) * n) = 8 * a * n + 8 * b * n by ring]
      exact h
    obtain ⟨c, e⟩ := hc.dvd_of_dvd_mul_right (coprime_eight.dvd_of_dvd_mul_left h1)
    have hc1 : c = 1 := by
      have : c ≠ 0 := by rintro rfl; omega
      have : c < 2 := by
        by_contra hc2
        have := Nat.mul_le_mul_left twistQ (show 2 ≤ c by omega)
        omega
      omega
    rw [hc1] at e
    omega
  · refine ⟨2 * n, ?_⟩
    rw [← Nat.add_mul, h]
    ring

theorem four_of {P Q : Twist25519} (hP : P ≠ 0) (hQ : Q ≠ 0) (h4 : 4 • Q = 0) (e : (twistU P).val = (twistU Q).val) :
    4 • P = 0 := by
  rcases (twistU_eq hP hQ).mp (ZMod.val_injective _ e) with rfl | rfl
  · exact h4
  · rw [neg_nsmul, h4, neg_zero]

theorem smul_three_q_ne : twistQ • three ≠ 0 := (smul_three_zero _ (by decide +kernel)).not.mpr (by decide +kernel)

theorem smul_three_q : 4 • (twistQ • three) = 0 := by
  rw [← mul_nsmul', mul_comm 4 twistQ]
  exact (smul_three _).mpr (dvd_refl _)

/-- The points killed by four are 0, one with u-coordinate 0 and two with u-coordinate -1. -/
theorem twistU_small (P : Twist25519) (hP : P ≠ 0) : 4 • P = 0 ↔ (twistU P).val = 0 ∨ (twistU P).val = p - 1 := by
  have hz : ∀ k, k < 2 ^ 255 → (twistU (k • three)).val = (loop k 3 255 ⟨1, 0, 3, 1⟩ false).x2 *
      Ed25519.inv (loop k 3 255 ⟨1, 0, 3, 1⟩ false).z2 % p := by
    intro k hk
    rw [← rep_div (rep_smul_three k hk), ← cast_inv', ← Nat.cast_mul, ZMod.val_natCast]
  constructor
  · intro h
    obtain ⟨n, rfl⟩ := generated P
    rw [← mul_nsmul', smul_three] at h
    have hd : twistQ ∣ n := Nat.dvd_of_mul_dvd_mul_right (k := 4) (by decide) (by rwa [mul_comm 4 n] at h)
    obtain ⟨c, rfl⟩ := hd
    have e : (twistQ * c) • three = (twistQ * (c % 4)) • three := by
      rw [nsmul_eq_nsmul_iff_modEq, order_three]
      exact Nat.ModEq.mul_left' twistQ (Nat.mod_modEq c 4).symm
    rw [e]
    have hc : c % 4 < 4 := Nat.mod_lt _ (by decide)
    have hlt : twistQ * 4 < 2 ^ 255 := by decide +kernel
    generalize c % 4 = r at hc
    rw [hz _ (by
      have := Nat.mul_le_mul_left twistQ (Nat.le_of_lt hc)
      omega)]
    interval_cases r <;> decide +kernel
  · rintro (h | h)
    · have h0 : twistU P = 0 := (ZMod.val_eq_zero _).mp h
      rw [show 4 = 2 * 2 from rfl, mul_nsmul', twistU_zero h0, nsmul_zero]
    · have h1 := hz twistQ (by decide +kernel)
      have h2 : (loop twistQ 3 255 ⟨1, 0, 3, 1⟩ false).x2 * Ed25519.inv (loop twistQ 3 255 ⟨1, 0, 3, 1⟩ false).z2 % p = p - 1 := by
        decide +kernel
      refine four_of hP (smul_three_q_ne) smul_three_q (h.trans (h1.trans h2).symm)

/-- What is not the u-coordinate of a point of the curve is that of a point of the twist. -/
theorem point_of {x : F} (h : ∀ v : F, v ^ 2 ≠ x ^ 3 + 486662 * x ^ 2 + x) : ∃ P : Twist25519, P ≠ 0 ∧ twistU P = x := by
  have hne : x ^ 3 + 486662 * x ^ 2 + x ≠ 0 := by
    intro h0
    apply h 0
    rw [h0]
    ring
  obtain ⟨y, hy⟩ : ∃ y : F, y ^ 2 = 8 * (x ^ 3 + 486662 * x ^ 2 + x) := by
    have : Fact p.Prime := ⟨p_prime⟩
    have hsq : ¬ IsSquare (x ^ 3 + 486662 * x ^ 2 + x) := by
      rintro ⟨r, hr⟩
      exact h r (by rw [hr]; ring)
    have h2 : ¬ IsSquare (2 : F) := by
      rintro ⟨r, hr⟩
      exact two_nonsq r hr.symm
    have e1 := (ZMod.pow_div_two_eq_neg_one_or_one p hne).resolve_left (fun h => hsq ((ZMod.euler_criterion p hne).mpr h))
    have e2 := (ZMod.pow_div_two_eq_neg_one_or_one p two_ne).resolve_left (fun h => h2 ((ZMod.euler_criterion p two_ne).mpr h))
    have e3 : (2 * (x ^ 3 + 486662 * x ^ 2 + x)) ^ (p / 2) = 1 := by rw [mul_pow, e1, e2]; ring
    obtain ⟨r, hr⟩ := (ZMod.euler_criterion p (mul_ne_zero two_ne hne)).mpr e3
    exact ⟨2 * r, by linear_combination -4 * hr⟩
  have hn : (twisted (F := F) 2 486662).Nonsingular (2 * x) y := by
    rw [nonsingular_iff]
    constructor
    · rw [equation_iff]
      linear_combination hy
    · right
      simp only [zero_mul, sub_zero, ne_eq]
      intro e
      have : (2 : F) * y = 0 := by linear_combination e
      rcases mul_eq_zero.mp this with h2 | h2
      · exact two_ne h2
      · rw [h2] at hy
        have h8 : (8 : F) ≠ 0 := by
          have : (8 : F) = 2 * 2 * 2 := by norm_num
          rw [this]
          exact mul_ne_zero (mul_ne_zero two_ne two_ne) two_ne
        have : (8 : F) * (x ^ 3 + 486662 * x ^ 2 + x) = 0 := by rw [← hy]; ring
        rcases mul_eq_zero.mp this with h | h
        · exact h8 h
        · exact hne h
  refine ⟨Point.some (2 * x) y hn, Point.some_ne_zero _, ?_⟩
  show 2 * x / 2 = x
  rw [mul_div_cancel_left₀ x two_ne]

/-- On a key of the twist: the value is all zero iff the u-coordinate is 0 or -1. -/
theorem x25519_zero_iff (s u : Bytes) (P : Twist25519) (h0 : P ≠ 0) (hP : twistU P = ((decodeU u : Nat) : F)) :
    x25519 s u = List.replicate 32 0 ↔ (twistU P).val = 0 ∨ (twistU P).val = p - 1 := by
  by_cases hz : twistU P = 0
  · rw [hz] at hP
    refine iff_of_true (x25519_zero s u hP.symm) ?_
    rw [hz, ZMod.val_zero]
    exact .inl rfl
  · rw [x25519_eq s u P hP hz, ← twistU_small P h0, ← twistU_scalar s P]
    have e0 : List.replicate 32 0 = leBytes 32 (0 : F).val := by rw [ZMod.val_zero]; decide
    rw [e0]
    exact ⟨leBytes_injective, fun h => by rw [h]⟩

/-- On any other two secrets give the same value iff their scalars are the same or opposite. -/
theorem x25519_two (s t u : Bytes) (P : Twist25519) (h0 : P ≠ 0) (hP : twistU P = ((decodeU u : Nat) : F))
    (hs : ¬ ((twistU P).val = 0 ∨ (twistU P).val = p - 1)) : x25519 s u = x25519 t u ↔
      decodeScalar s = decodeScalar t ∨ decodeScalar s + decodeScalar t = 8 * twistQ := by
  have hz : twistU P ≠ 0 := by
    intro h
    rw [h, ZMod.val_zero] at hs
    exact hs (.inl rfl)
  rw [x25519_eq s u P hP hz, x25519_eq t u P hP hz, ← twistU_two s t P ((twistU_small P h0).not.mpr hs)]
  exact ⟨leBytes_injective, fun h => by rw [h]⟩

end Verif.X25519.Twist
